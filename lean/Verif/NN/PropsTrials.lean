import Verif.NN.PropsTestTrain
import Verif.NN.PropsSetters
/-! # C115: repeated trials -/
namespace Nnet.NN
open Finset
noncomputable section

/-- Of the `2 m` calls of `randomize` on a network with `m` hidden layers, one chose layer `k` (the output layer is number `m`). -/
def Spec.Chosen (rnd : Nat → Nat) (m k : Nat) : Prop := ∃ j < m * 2, rnd j % (m + 1) = k

/-- The weights `randominit(sd)` gives to every layer of the size of `W`. -/
def Spec.DrawnLike (dist : Draws) (sd : ℝ) (W W' : Mat ℝ) : Prop := ∀ L L' : Layer, L.W.nr = W.nr → L.W.nc = W.nc → L.randominit dist sd = .ok L' → W' = L'.W

namespace TestData
open Spec

theorem drawnLike_initW {dist : Draws} {sd : ℝ} {W W' : Mat ℝ} : DrawnLike dist sd W W' ↔ W' = initW dist W.nr W.nc sd := by
  constructor
  · intro h
    exact h { Layer.default with W := W } _ rfl rfl (randominit_ok _ _ _)
  · rintro rfl L L' h1 h2 e
    rw [randominit_ok] at e
    cases e
    rw [h1, h2]

open Classical in
/-- The layer after the calls that chose it (`c`). -/
def redraw (dist : Draws) (sd : ℝ) (c : Prop) (L : Layer) : Layer := if c then { L with W := initW dist L.W.nr L.W.nc sd } else L

theorem layers_get_hidden {s : Store} {n : Net} {k : Nat} (hk : k < n.hidden.length) : (n.layers s)[k]? = n.hidden[k]?.map (fun p => (s p).base) := by
  unfold Net.layers Net.hiddenLayers
  rw [List.getElem?_append_left (by rw [List.length_map]; exact hk), List.getElem?_map]

theorem layers_get_output {s : Store} {n : Net} : (n.layers s)[n.hidden.length]? = some n.output.toLayer := by
  unfold Net.layers Net.hiddenLayers
  rw [List.getElem?_append_right (by rw [List.length_map]), List.length_map, Nat.sub_self]
  rfl

theorem layers_length {s : Store} {n : Net} : (n.layers s).length = n.hidden.length + 1 := by
  unfold Net.layers Net.hiddenLayers
  rw [List.length_append, List.length_map]
  rfl

/-- The state after `j` calls. -/
structure After (dist : Draws) (rnd : Nat → Nat) (sd : ℝ) (s0 : Store) (n0 : Net) (j : Nat) (st : Store × Net) : Prop where
  conf : n0.SameConf st.2
  dense : ∀ p ∈ n0.hidden, (st.1 p).kind = .dense
  frame : ∀ p, p ∉ n0.hidden → st.1 p = s0 p
  layers : ∀ k L, (n0.layers s0)[k]? = some L → (st.2.layers st.1)[k]? = some (redraw dist sd (∃ i < j, rnd i % (n0.hidden.length + 1) = k) L)

theorem redraw_again {dist : Draws} {sd : ℝ} {c c' : Prop} (h : c') (L : Layer) :
    { redraw dist sd c L with W := initW dist (redraw dist sd c L).W.nr (redraw dist sd c L).W.nc sd } = redraw dist sd c' L := by
  unfold redraw
  rw [if_pos h]
  split
  · rfl
  · rfl

theorem redraw_congr {dist : Draws} {sd : ℝ} {c c' : Prop} (h : c ↔ c') (L : Layer) : redraw dist sd c L = redraw dist sd c' L := by
  unfold redraw
  by_cases hc : c
  · rw [if_pos hc, if_pos (h.1 hc)]
  · rw [if_neg hc, if_neg (fun h' => hc (h.2 h'))]

theorem after_step {dist : Draws} {rnd : Nat → Nat} {sd : ℝ} {s0 : Store} {n0 : Net} {p q : Nat} (h : n0.WF s0 p q) {j : Nat} {st : Store × Net} (ha : After dist rnd sd s0 n0 j st) :
    ∃ st', st.2.randomize dist (rnd j) st.1 sd = .ok st' ∧ After dist rnd sd s0 n0 (j + 1) st' := by
  obtain ⟨s, n⟩ := st
  obtain ⟨h1, h2, h3, h4⟩ := ha
  dsimp only at *
  have hh : n.hidden = n0.hidden := h1.hidden
  set m := n0.hidden.length with hm
  have hk : rnd j % (m + 1) < m + 1 := Nat.mod_lt _ (by omega)
  set k0 := rnd j % (m + 1) with hk0
  have other : ∀ k, k ≠ k0 → ((∃ i < j, rnd i % (m + 1) = k) ↔ ∃ i < j + 1, rnd i % (m + 1) = k) := by
    intro k hne
    constructor
    · rintro ⟨i, hi, e⟩; exact ⟨i, by omega, e⟩
    · rintro ⟨i, hi, e⟩
      refine ⟨i, ?_, e⟩
      rcases Nat.lt_succ_iff_lt_or_eq.1 hi with hi | rfl
      · exact hi
      · exact absurd e.symm hne
  rw [show n.randomize dist (rnd j) s sd = n.randomizeAt dist s k0 sd by unfold Net.randomize; rw [hh]]
  unfold Net.randomizeAt
  by_cases hlt : k0 < m
  · have e0 : n0.hidden[k0]? = some n0.hidden[k0] := List.getElem?_eq_getElem hlt
    set p0 := n0.hidden[k0] with hp0
    rw [show n.hidden[k0]? = some p0 by rw [hh]; exact e0]
    dsimp only
    have hd : (s p0).kind = .dense := h2 p0 (List.getElem_mem hlt)
    have hr : (s p0).randominit dist sd = .ok ⟨{ (s p0).base with W := initW dist (s p0).base.W.nr (s p0).base.W.nc sd }, .dense⟩ := by
      unfold HLayer.randominit
      rw [hd]
      dsimp only
      rw [randominit_ok, ok_bind]
    rw [hr, ok_bind]
    refine ⟨_, rfl, h1, fun p' hp' => ?_, fun p' hp' => ?_, fun k L hL => ?_⟩
    · dsimp only
      by_cases hpp : p' = p0
      · rw [hpp, put_same]
      · rw [put_other hpp]; exact h2 p' hp'
    · dsimp only
      rw [put_other (fun hpp => hp' (by rw [hpp]; exact List.getElem_mem hlt))]
      exact h3 p' hp'
    · dsimp only
      have hL' := h4 k L hL
      have hkl : k < m + 1 := by
        have := (List.getElem?_eq_some_iff.1 hL).1
        rw [layers_length] at this
        omega
      by_cases hkm : k < m
      · rw [layers_get_hidden (by rw [hh]; exact hkm)] at hL' ⊢
        rw [hh, List.getElem?_eq_getElem hkm] at hL' ⊢
        rw [Option.map_some, Option.some_inj] at hL' ⊢
        by_cases hkk : k = k0
        · subst hkk
          rw [← hp0, put_same]
          dsimp only
          rw [← hp0] at hL'
          rw [hL']
          exact redraw_again ⟨j, by omega, rfl⟩ L
        · have : n0.hidden[k] ≠ p0 := fun e => hkk ((h.nodup.getElem_inj_iff).1 e)
          rw [put_other this, hL']
          exact redraw_congr (other k hkk) L
      · have hke : k = n.hidden.length := by rw [hh]; omega
        have hkk : k ≠ k0 := by omega
        rw [hke, layers_get_output] at hL' ⊢
        rw [hL', ← hke]
        exact congrArg some (redraw_congr (other k hkk) L)
  · have hke : k0 = m := by omega
    rw [List.getElem?_eq_none (by rw [hh]; omega)]
    dsimp only
    rw [randominit_ok, ok_bind]
    refine ⟨_, rfl, ⟨h1.hidden, h1.cost, h1.costd, h1.ocost, h1.ocostd⟩, h2, h3, fun k L hL => ?_⟩
    have hL' := h4 k L hL
    have hkl : k < m + 1 := by
      have := (List.getElem?_eq_some_iff.1 hL).1
      rw [layers_length] at this
      omega
    dsimp only
    by_cases hkm : k < m
    · rw [layers_get_hidden (by rw [hh]; exact hkm)] at hL'
      rw [layers_get_hidden (by show k < n.hidden.length; rw [hh]; exact hkm)]
      exact hL'.trans (congrArg some (redraw_congr (other k (by omega)) L))
    · have hkn : k = n.hidden.length := by rw [hh]; omega
      rw [hkn, layers_get_output, Option.some_inj] at hL'
      have := layers_get_output (s := s) (n := { n with output := { n.output with toLayer := { n.output.toLayer with W := initW dist n.output.toLayer.W.nr n.output.toLayer.W.nc sd } } })
      rw [hkn]
      refine this.trans ?_
      dsimp only
      rw [hL']
      exact congrArg some (redraw_again ⟨j, by omega, hke.trans (by rw [hh])⟩ L)

theorem assign_layers (s : Store) (self n : Net) : (self.assign n).layers s = n.layers s := rfl

theorem wf_of_shapes {s s' : Store} {n n' : Net} {p q : Nat} (h : n.WF s p q) (hh : n'.hidden = n.hidden) (hd : ∀ p ∈ n.hidden, (s' p).kind = .dense) (hs : n'.shapes s' = n.shapes s) : n'.WF s' p q := by
  refine ⟨by rw [hh]; exact h.nodup, by rw [hh]; exact hd, h.pos, fits_congr ?_ h.fits⟩
  unfold Net.shapes at hs
  rw [List.map_map, List.map_map]
  exact hs

theorem shapes_ext {s s' : Store} {n n' : Net} (hh : n'.hidden.length = n.hidden.length)
    (key : ∀ (k : Nat) (L : Layer), (n.layers s)[k]? = some L → ∃ L' : Layer, (n'.layers s')[k]? = some L' ∧ L'.W.nr = L.W.nr ∧ L'.W.nc = L.W.nc) : n'.shapes s' = n.shapes s := by
  unfold Net.shapes
  refine List.ext_getElem? (fun k => ?_)
  rw [List.getElem?_map, List.getElem?_map]
  cases hL : (n.layers s)[k]? with
  | some L =>
    obtain ⟨L', e1, e2, e3⟩ := key k L hL
    rw [e1]
    show some (L'.W.nr, L'.W.nc) = some (L.W.nr, L.W.nc)
    rw [e2, e3]
  | none =>
    rw [List.getElem?_eq_none_iff, layers_length] at hL
    rw [List.getElem?_eq_none_iff.2 (by rw [layers_length, hh]; exact hL)]

/-- **C115** (setting back). Setting back a network from its copy `raw` and drawing anew succeeds, whatever `rand()` returns. The network then has the hidden layers, the costs and all the settings `raw`
has now. Each layer that was chosen has the weights `randominit(sd)` gives to every layer of its size; each other layer has the weights `raw` has now: these are the trained ones in the hidden layers,
because `raw` shares them with the network, and the initial ones in the output layer. -/
theorem C115_restart {dist : Draws} {rnd : Nat → Nat} {sd : ℝ} {id raw : Nat} {w : World} {p q : Nat} (h : (w.nets raw).WF w.store p q) :
    ∃ w', restart dist rnd sd id raw w = .ok w' ∧ (∀ k, k ≠ id → w'.nets k = w.nets k) ∧ (∀ a, a ∉ (w.nets raw).hidden → w'.store a = w.store a) ∧ (w'.nets id).WF w'.store p q ∧
      (w.nets raw).SameConf (w'.nets id) ∧
      ∀ k L, ((w.nets raw).layers w.store)[k]? = some L → ∃ L', ((w'.nets id).layers w'.store)[k]? = some L' ∧ L'.lrate = L.lrate ∧ L'.lambda = L.lambda ∧ L'.actfunc = L.actfunc ∧
        L'.W.nr = L.W.nr ∧ L'.W.nc = L.W.nc ∧
        (Chosen rnd (w.nets raw).hidden.length k → DrawnLike dist sd L.W L'.W) ∧ (¬ Chosen rnd (w.nets raw).hidden.length k → L'.W = L.W) := by
  obtain ⟨⟨s, n⟩, e, ha⟩ := loop_inv (n := (w.nets raw).hidden.length * 2) (body := fun j (st : Store × Net) => st.2.randomize dist (rnd j) st.1 sd) (s := (w.store, (w.nets id).assign (w.nets raw)))
    (After dist rnd sd w.store (w.nets raw)) ⟨⟨rfl, rfl, rfl, rfl, rfl⟩, h.dense, fun _ _ => rfl, fun k L hL => by
      dsimp only
      rw [assign_layers, hL]
      unfold redraw
      rw [if_neg (by rintro ⟨i, hi, -⟩; omega)]⟩ (fun i st _ hst => after_step h hst)
  have key : ∀ k L, ((w.nets raw).layers w.store)[k]? = some L → ∃ L', (n.layers s)[k]? = some L' ∧ L'.lrate = L.lrate ∧ L'.lambda = L.lambda ∧ L'.actfunc = L.actfunc ∧
        L'.W.nr = L.W.nr ∧ L'.W.nc = L.W.nc ∧
        (Chosen rnd (w.nets raw).hidden.length k → DrawnLike dist sd L.W L'.W) ∧ (¬ Chosen rnd (w.nets raw).hidden.length k → L'.W = L.W) := by
    intro k L hL
    refine ⟨_, ha.layers k L hL, ?_⟩
    rw [show (∃ i < (w.nets raw).hidden.length * 2, rnd i % ((w.nets raw).hidden.length + 1) = k) = Chosen rnd (w.nets raw).hidden.length k from rfl]
    unfold redraw
    by_cases hc : Chosen rnd (w.nets raw).hidden.length k
    · rw [if_pos hc]
      exact ⟨rfl, rfl, rfl, rfl, rfl, fun _ => drawnLike_initW.2 rfl, fun h => absurd hc h⟩
    · rw [if_neg hc]
      exact ⟨rfl, rfl, rfl, rfl, rfl, fun h => absurd h hc, fun _ => rfl⟩
  have hconf : (w.nets raw).SameConf n := ha.conf
  refine ⟨w.put id s n, ?_, fun k hk => by unfold World.put; exact if_neg hk, ha.frame, ?_, by rw [put_nets]; exact hconf, by rw [put_nets]; exact key⟩
  · unfold restart
    dsimp only
    rw [show ((w.nets id).assign (w.nets raw)).hidden.length = (w.nets raw).hidden.length from rfl, e, ok_bind]
  · rw [put_nets]
    refine wf_of_shapes (s' := s) h hconf.hidden ha.dense (shapes_ext (by rw [hconf.hidden]) (fun k L hL => ?_))
    obtain ⟨L', e1, -, -, -, e2, e3, -⟩ := key k L hL
    exact ⟨L', e1, e2, e3⟩

/-! ## What a trial keeps -/

/-- The call of the decay falls into the next `n` calls. -/
def _root_.Nnet.NN.Spec.DecayWithin (t : Trainer) (n : Nat) : Prop := t.usedecay = true ∧ t.iters < t.step ∧ t.step ≤ t.iters + n

/-- What training and predicting keep. -/
structure Held (id : Nat) (quiet : Prop) (w w' : World) : Prop where
  others : ∀ k, k ≠ id → w'.nets k = w.nets k
  conf : (w.nets id).SameConf (w'.nets id)
  shapes : (w'.nets id).shapes w'.store = (w.nets id).shapes w.store
  keys : quiet → ((w'.nets id).layers w'.store).map confKey = ((w.nets id).layers w.store).map confKey

theorem Held.refl {id : Nat} {Q : Prop} {w : World} : Held id Q w w := ⟨fun _ _ => rfl, .rfl, rfl, fun _ => rfl⟩

theorem Held.trans {id : Nat} {Q : Prop} {w w' w'' : World} (h : Held id Q w w') (h' : Held id Q w' w'') : Held id Q w w'' :=
  ⟨fun k hk => (h'.others k hk).trans (h.others k hk), h.conf.trans h'.conf, h'.shapes.trans h.shapes, fun q => (h'.keys q).trans (h.keys q)⟩

theorem Held.weaken {id : Nat} {Q Q' : Prop} {w w' : World} (h : Held id Q w w') (hq : Q' → Q) : Held id Q' w w' := ⟨h.others, h.conf, h.shapes, fun q => h.keys (hq q)⟩

theorem shapes_of_keys {s s' : Store} {n n' : Net} (h : (n'.layers s').map confKey = (n.layers s).map confKey) : n'.shapes s' = n.shapes s := by
  have := congrArg (List.map (·.2)) h
  rw [List.map_map, List.map_map] at this
  exact this

theorem sameConf_symm {n n' : Net} (h : n.SameConf n') : n'.SameConf n := ⟨h.hidden.symm, h.cost.symm, h.costd.symm, h.ocost.symm, h.ocostd.symm⟩

theorem callFits_of {w w' : World} {id p q : Nat} {x y : Mat ℝ} (h : CallFits w id p q x y) (hw : (w'.nets id).WF w'.store p q) (hc : (w.nets id).SameConf (w'.nets id)) : CallFits w' id p q x y :=
  ⟨hw, by rw [hc.cost]; exact h.cost, by rw [hc.ocostd]; exact h.costd, h.rows, h.inputs, h.labels, h.outputs⟩

theorem held_put {id : Nat} {Q : Prop} {w : World} {s : Store} {n : Net} (h1 : (w.nets id).SameConf n) (h2 : n.shapes s = (w.nets id).shapes w.store)
    (h3 : Q → (n.layers s).map confKey = ((w.nets id).layers w.store).map confKey) : Held id Q w (w.put id s n) :=
  ⟨fun k hk => by unfold World.put; exact if_neg hk, by rw [put_nets]; exact h1, by rw [put_nets]; exact h2, by rw [put_nets]; exact h3⟩

theorem feed_held {junk : Nat → Nat → ℝ} {id p q : Nat} {w w' : World} {t t' : Trainer} {x y : Mat ℝ} (h : CallFits w id p q x y) (hid : t.nnet = id)
    (e : t.feeddata junk w x y = .ok (w', t')) : t' = t.count ∧ CallFits w' id p q x y ∧ Held id (¬ (t.usedecay = true ∧ t.count.iters = t.step)) w w' := by
  obtain ⟨s1, n1, _, _, e1, -, -, w1, -, -, e5, c1, -⟩ := step_model (junk := junk) (junk' := junk) (decay_wf h.wf t.count) (decay_wf h.wf t.count) rfl h.rows h.inputs h.labels h.outputs
    (by rw [(decay_keeps (s := w.store) (n := w.nets id) t.count).2.1]; exact (library_cases h.costd).2)
  unfold Trainer.feeddata at e
  dsimp only at e
  rw [show t.count.nnet = id from hid, e1, ok_bind] at e
  cases e
  have dconf : (w.nets id).SameConf (t.count.decay w.store (w.nets id)).2 := by
    unfold Trainer.decay
    split
    · exact (setlrate_becomes h.wf _).conf
    · exact .rfl
  have dshapes : (t.count.decay w.store (w.nets id)).2.shapes (t.count.decay w.store (w.nets id)).1 = (w.nets id).shapes w.store := by
    unfold Trainer.decay
    split
    · unfold Net.shapes
      rw [(setlrate_becomes h.wf _).layers, List.map_map]
      rfl
    · rfl
  have hc : (w.nets id).SameConf n1 := dconf.trans (sameConf_symm c1)
  have hh : Held id (¬ (t.usedecay = true ∧ t.count.iters = t.step)) w (w.put id s1 n1) := by
    refine held_put hc ((shapes_of_keys e5).trans dshapes) (fun hq => ?_)
    rw [e5]
    unfold Trainer.decay
    rw [if_neg (show ¬ (t.count.usedecay = true ∧ t.count.iters = t.count.step) from hq)]
  exact ⟨rfl, callFits_of h (by rw [put_nets]; exact w1) hh.conf, hh⟩

theorem keys_of_sameModel {Ls Ms : List Layer} (h : List.Forall₂ Layer.SameModel Ls Ms) : Ms.map confKey = Ls.map confKey := by
  induction h with
  | nil => rfl
  | cons h1 _ ih =>
    rw [List.map_cons, List.map_cons, ih]
    unfold confKey
    rw [h1.W, h1.lrate, h1.lambda, h1.actfunc]

theorem predict_held {junk : Nat → Nat → ℝ} {id p q : Nat} {w : World} {x y x' : Mat ℝ} {r : Mat ℝ} {s : Store} {n : Net} (h : CallFits w id p q x y) (hr : 0 < x'.nr) (hc : x'.nc = p)
    (e : (w.nets id).predict junk w.store x' = .ok (r, s, n)) : CallFits (w.put id s n) id p q x y ∧ Held id True w (w.put id s n) := by
  obtain ⟨r', s', n', f, f1, f2, f3, -⟩ := query_ok (junk := junk) (c := .predict x') h.wf hr hc
  have ff := e.symm.trans (show (w.nets id).predict junk w.store x' = _ from f)
  cases ff
  have k := keys_of_sameModel f2
  have hh : Held id True w (w.put id s n) := held_put f3 (shapes_of_keys k) (fun _ => k)
  exact ⟨callFits_of h (by rw [put_nets]; exact f1) hh.conf, hh⟩

theorem loop_post {σ : Type _} {n : Nat} {body : Nat → σ → Res σ} {s s' : σ} (P : Nat → σ → Prop) (h : loop n body s = .ok s') (h0 : P 0 s)
    (hs : ∀ i a b, i < n → P i a → body i a = .ok b → P (i + 1) b) : P n s' := by
  induction n generalizing s' with
  | zero => cases h; exact h0
  | succ n ih =>
    unfold loop at h
    obtain ⟨a, e1, e2⟩ := bind_eq_ok h
    exact hs n a s' (by omega) (ih e1 (fun i a b hi => hs i a b (by omega))) e2

theorem train_held {junk : Nat → Nat → ℝ} {id p q : Nat} {w w' : World} {t t' : Trainer} {x y : Mat ℝ} {maxiters : Nat} {slow : Nat → Bool} {out : List (Nat × ℝ × ℝ)} (h : CallFits w id p q x y)
    (hid : t.nnet = id) (hit : t.iters + maxiters < 2 ^ 64) (e : train junk id w t x y maxiters slow = .ok (out, w', t')) :
    t' = { t with iters := t.iters + maxiters } ∧ CallFits w' id p q x y ∧ Held id (¬ DecayWithin t maxiters) w w' := by
  unfold train at e
  have := loop_post (fun i (st : List (Nat × ℝ × ℝ) × World × Trainer) => st.2.2 = { t with iters := t.iters + i } ∧ CallFits st.2.1 id p q x y ∧ Held id (¬ DecayWithin t maxiters) w st.2.1) e
    ⟨rfl, h, .refl⟩ (fun i a b hi ha eb => ?_)
  · exact this
  obtain ⟨l, v, u⟩ := a
  obtain ⟨a1, a2, a3⟩ := ha
  dsimp only at a1 a2 a3
  have hu : u.nnet = id := by rw [a1]; exact hid
  have hnext : u.count = { t with iters := t.iters + (i + 1) } := by
    rw [a1]
    unfold Trainer.count
    dsimp only
    rw [Nat.mod_eq_of_lt (by omega)]
    rfl
  have step : ∀ {c v1 u1 cc}, u.feedcost junk v x y cc = .ok (c, v1, u1) → u1 = { t with iters := t.iters + (i + 1) } ∧ CallFits v1 id p q x y ∧ Held id (¬ DecayWithin t maxiters) w v1 := by
    intro c v1 u1 cc f
    obtain ⟨f1, -⟩ := C57_trainer (by rw [hu]; exact a2.wf) a2.rows a2.inputs f
    obtain ⟨g1, g2, g3⟩ := feed_held a2 hu f1
    refine ⟨g1.trans hnext, g2, a3.trans (g3.weaken (fun hq => ?_))⟩
    rw [hnext, a1]
    rintro ⟨k1, k2⟩
    dsimp only at k1 k2
    exact hq ⟨k1, by omega, by omega⟩
  unfold trainRound at eb
  dsimp only at eb
  split at eb
  · obtain ⟨⟨c, v1, u1⟩, f, eb⟩ := bind_eq_ok eb
    dsimp only at eb
    obtain ⟨⟨pr, s, n⟩, f', eb⟩ := bind_eq_ok eb
    dsimp only at eb
    obtain ⟨ac, -, eb⟩ := bind_eq_ok eb
    cases eb
    obtain ⟨g1, g2, g3⟩ := step f
    obtain ⟨k1, k2⟩ := predict_held g2 g2.rows g2.inputs f'
    exact ⟨g1, k1, g3.trans (k2.weaken (fun _ => trivial))⟩
  · obtain ⟨⟨c, v1, u1⟩, f, eb⟩ := bind_eq_ok eb
    dsimp only at eb
    cases eb
    exact step f

/-! ## Trials from equal weights -/

theorem feeddata_plain {junk : Nat → Nat → ℝ} {w w' : World} {t t' : Trainer} {x y : Mat ℝ} (hq : ¬ (t.usedecay = true ∧ t.count.iters = t.step)) (e : t.feeddata junk w x y = .ok (w', t')) :
    (Trainer.new t.nnet).feeddata junk w x y = .ok (w', (Trainer.new t.nnet).count) := by
  unfold Trainer.feeddata at e ⊢
  dsimp only at e ⊢
  rw [show t.count.decay w.store (w.nets t.count.nnet) = (w.store, w.nets t.nnet) by unfold Trainer.decay; rw [if_neg (show ¬ (t.count.usedecay = true ∧ t.count.iters = t.count.step) from hq)]; rfl] at e
  rw [show (Trainer.new t.nnet).count.decay w.store (w.nets (Trainer.new t.nnet).count.nnet) = (w.store, w.nets t.nnet) by
    unfold Trainer.decay; rw [if_neg (by rintro ⟨h, -⟩; cases h)]; rfl]
  dsimp only at e ⊢
  obtain ⟨r, e1, e2⟩ := bind_eq_ok e
  rw [e1, ok_bind]
  cases e2
  rfl

/-- Training from networks with equal settings and weights leads to equal settings and weights, whatever the clocks and the numbers of calls before, if no decay falls into it. -/
theorem train_same {junk : Nat → Nat → ℝ} {id p q : Nat} {w1 w2 v1 v2 : World} {t1 t2 u1 u2 : Trainer} {x y : Mat ℝ} {c : Nat → Nat} {maxiters : Nat} {slow1 slow2 : Nat → Bool}
    {o1 o2 : List (Nat × ℝ × ℝ)} (h1 : CallFits w1 id p q x y) (h2 : CallFits w2 id p q x y) (hy : OneHotOf y x.nr q c) (hid1 : t1.nnet = id) (hid2 : t2.nnet = id)
    (hi1 : t1.iters + maxiters < 2 ^ 64) (hi2 : t2.iters + maxiters < 2 ^ 64) (hq1 : ¬ DecayWithin t1 maxiters) (hq2 : ¬ DecayWithin t2 maxiters)
    (hm : Spec.model w1.store (w1.nets id) = Spec.model w2.store (w2.nets id)) (hd : (w1.nets id).output.costd = (w2.nets id).output.costd) (hc : (w1.nets id).cost = (w2.nets id).cost)
    (e1 : train junk id w1 t1 x y maxiters slow1 = .ok (o1, v1, u1)) (e2 : train junk id w2 t2 x y maxiters slow2 = .ok (o2, v2, u2)) :
    Spec.model v1.store (v1.nets id) = Spec.model v2.store (v2.nets id) := by
  obtain ⟨R1, C1, G1, a1, b1, d1⟩ := C114_clock (junk := junk) maxiters h1 hid1 hy
  obtain ⟨R2, C2, G2, a2, b2, d2⟩ := C114_clock (junk := junk) maxiters h2 hid2 hy
  obtain ⟨v1', f1, g1, -⟩ := d1 slow1
  obtain ⟨v2', f2, g2, -⟩ := d2 slow2
  rw [e1] at f1
  rw [e2] at f2
  cases f1
  cases f2
  rw [g1, g2]
  have key : ∀ i ≤ maxiters, Alike id p q x y ((R1 i).1, Trainer.new id) ((R2 i).1, Trainer.new id) ∧ (R1 i).2 = { t1 with iters := t1.iters + i } ∧ (R2 i).2 = { t2 with iters := t2.iters + i } := by
    intro i
    induction i with
    | zero =>
      intro _
      rw [a1, a2]
      exact ⟨⟨h1, h2, rfl, hm, hd, hc⟩, rfl, rfl⟩
    | succ i ih =>
      intro hi
      obtain ⟨k1, k2, k3⟩ := ih (by omega)
      obtain ⟨wa, wb, m1, m2, m3⟩ := feed_alike (junk := junk) k1 rfl
      have count : ∀ {t u : Trainer}, t.iters + maxiters < 2 ^ 64 → u = { t with iters := t.iters + i } → u.count = { t with iters := t.iters + (i + 1) } := by
        rintro t u ht rfl
        unfold Trainer.count
        dsimp only
        rw [Nat.mod_eq_of_lt (by omega)]
        rfl
      have side : ∀ {t : Trainer} {r r' : World × Trainer} {wz : World}, t.nnet = id → t.iters + maxiters < 2 ^ 64 → ¬ DecayWithin t maxiters → CallFits r.1 id p q x y → r.2 = { t with iters := t.iters + i } →
          r.2.feeddata junk r.1 x y = .ok r' → (Trainer.new id).feeddata junk r.1 x y = .ok (wz, (Trainer.new id).count) → r'.1 = wz ∧ r'.2 = { t with iters := t.iters + (i + 1) } := by
        intro t r r' wz hn ht hq hf hr er ez
        have hrn : r.2.nnet = id := by rw [hr]; exact hn
        have hcnt := count ht hr
        obtain ⟨n1, -, -⟩ := feed_held (w' := r'.1) (t' := r'.2) hf hrn er
        have := feeddata_plain (w' := r'.1) (t' := r'.2) (by
          rw [hcnt, hr]
          rintro ⟨z1, z2⟩
          dsimp only at z1 z2
          exact hq ⟨z1, by omega, by omega⟩) er
        rw [hrn, ez] at this
        injection this with this
        injection this with this
        exact ⟨this.symm, n1.trans hcnt⟩
      obtain ⟨s1, s1'⟩ := side (r := R1 i) hid1 hi1 hq1 k1.fits1 k2 (b1 i).1 m1
      obtain ⟨s2, s2'⟩ := side (r := R2 i) hid2 hi2 hq2 k1.fits2 k3 (b2 i).1 m2
      refine ⟨?_, s1', s2'⟩
      rw [s1, s2]
      exact ⟨m3.fits1, m3.fits2, rfl, m3.model, m3.costd, m3.cost⟩
  exact (key maxiters (le_refl _)).1.model

end TestData
end
end Nnet.NN
