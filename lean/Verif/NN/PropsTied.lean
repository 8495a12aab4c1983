import Verif.NN.PropsResume
import Verif.NN.PropsCopy
import Verif.NN.PropsFile
import Verif.NN.PropsForward
import Verif.NN.PropsMatop
/-!
# C98: one layer object at several positions of a network
-/
namespace Nnet.NN
open Finset
noncomputable section

/-! ## Specification -/

/-- A network of dense layers whose weights lead from `p` inputs to `q` outputs, in which a layer object may be used at several positions. -/
structure Spec.Tied (s : Store) (n : Net) (p q : Nat) : Prop where
  dense : ∀ id ∈ n.hidden, (s id).kind = .dense
  pos : 0 < p
  fits : Spec.Fits p ((n.layers s).map (·.W)) q

/-- Every layer object still is what it was, as far as a call can see that does not look at cached intermediate results. -/
def Spec.SameObjects (s s' : Store) : Prop :=
  ∀ id, (s' id).kind = (s id).kind ∧ (s' id).base.W = (s id).base.W ∧ (s' id).base.actfunc = (s id).base.actfunc ∧ (s' id).base.lrate = (s id).base.lrate ∧
    (s' id).base.lambda = (s id).base.lambda

/-! ## Lemmas -/

theorem Spec.SameObjects.core {s s' : Store} (h : Spec.SameObjects s s') (id : Nat) : (s' id).base.core = (s id).base.core := by
  obtain ⟨-, h1, h2, h3, h4⟩ := h id
  unfold Layer.core
  rw [h1, h2, h3, h4]

/-- Forward pass through hidden layers among which an object may occur several times. -/
theorem hiddenForward_tied {junk : Nat → Nat → ℝ} : ∀ {ps : List Nat} {s : Store} {x : Mat ℝ} {q : Nat}, (∀ p ∈ ps, (s p).kind = .dense) → 0 < x.nr → 0 < x.nc →
    Spec.Fits x.nc (ps.map fun p => (s p).base.W) q →
    ∃ s', Net.hiddenForward junk ps s x = .ok (outL (ps.map fun p => (s p).base) x, s') ∧ Spec.SameObjects s s' ∧
      (outL (ps.map fun p => (s p).base) x).nr = x.nr ∧ (outL (ps.map fun p => (s p).base) x).nc = q ∧ 0 < q
  | [], s, x, q, _, hr, hc, hf => by
    simp only [List.map_nil, Spec.Fits] at hf
    exact ⟨s, rfl, fun _ => ⟨rfl, rfl, rfl, rfl, rfl⟩, rfl, hf, by omega⟩
  | p :: ps, s, x, q, hd, hr, hc, hf => by
    simp only [List.map_cons, Spec.Fits] at hf
    have hp : s p = ⟨(s p).base, .dense⟩ := by rw [← hd p (by simp)]
    set s1 : Store := s.put p ⟨(s p).base.fwd x, .dense⟩ with hs1
    have ho : Spec.SameObjects s s1 := by
      intro id
      by_cases h : id = p
      · subst h
        rw [hs1, put_same]
        exact ⟨(hd id (by simp)).symm, rfl, rfl, rfl, rfl⟩
      · rw [hs1, put_other h]
        exact ⟨rfl, rfl, rfl, rfl, rfl⟩
    have hW : (ps.map fun p => (s1 p).base.W) = ps.map fun p => (s p).base.W := List.map_congr_left fun r _ => (ho r).2.1
    have hout : outL (ps.map fun p => (s1 p).base) ((s p).base.fwd x).a = outL (ps.map fun p => (s p).base) ((s p).base.fwd x).a := by
      refine outL_congr _ ?_
      rw [List.map_map, List.map_map]
      exact List.map_congr_left fun r _ => ho.core r
    obtain ⟨s', e, h2, h3, h4, h5⟩ := hiddenForward_tied (junk := junk) (ps := ps) (s := s1) (x := ((s p).base.fwd x).a) (q := q)
      (fun r hr' => by rw [(ho r).1]; exact hd r (by simp [hr'])) (by exact hr) (by exact hf.2.1) (by rw [hW]; exact hf.2.2)
    rw [hout] at e h3 h4
    refine ⟨s', ?_, ?_, h3, h4, h5⟩
    · unfold Net.hiddenForward HLayer.forwardprop
      rw [hp]
      simp only
      rw [Layer.forwardprop_ok hr hc hf.1, ok_bind, ok_bind]
      exact e
    · intro id
      obtain ⟨a1, a2, a3, a4, a5⟩ := h2 id
      obtain ⟨b1, b2, b3, b4, b5⟩ := ho id
      exact ⟨a1.trans b1, a2.trans b2, a3.trans b3, a4.trans b4, a5.trans b5⟩

theorem outL_net (s : Store) (n : Net) (x : Mat ℝ) : outL (n.layers s) x = Spec.denseNet (n.params s) x := by
  unfold Net.params
  generalize n.layers s = Ls
  induction Ls generalizing x with
  | nil => rfl
  | cons L Ls ih =>
    show outL Ls (L.fwd x).a = Spec.denseNet (Ls.map _) (Spec.dense L.actfunc.act L.W x)
    rw [ih, Layer.fwd_a]

/-! ## C98 -/

/-- **C98** (outputs). A dense network computes, also when it uses a layer object at several positions, the composition of the dense layers at its positions;
no weight, rate, regularisation or activation changes. -/
theorem C98_outputs_partial {junk : Nat → Nat → ℝ} {s : Store} {n : Net} {p q : Nat} {x : Mat ℝ} (h : Spec.Tied s n p q) (hr : 0 < x.nr) (hc : x.nc = p) :
    ∃ s' n', n.forwardprop junk s x = .ok (Spec.denseNet (n.params s) x, s', n') ∧ n'.getresult = Spec.denseNet (n.params s) x ∧
      (Spec.denseNet (n.params s) x).nr = x.nr ∧ (Spec.denseNet (n.params s) x).nc = q ∧ n'.hidden = n.hidden ∧ Spec.SameObjects s s' ∧
      n'.params s' = n.params s := by
  have hfit := h.fits
  unfold Net.layers at hfit
  rw [List.map_append, fits_append] at hfit
  obtain ⟨r0, hf1, hf2⟩ := hfit
  simp only [List.map_cons, List.map_nil, Spec.Fits] at hf2
  obtain ⟨s', e, h2, h3, h4, h5⟩ := hiddenForward_tied (junk := junk) (ps := n.hidden) (s := s) (x := x) (q := r0) h.dense hr (by rw [hc]; exact h.pos)
    (by rw [hc]; unfold Net.hiddenLayers at hf1; rw [List.map_map] at hf1; exact hf1)
  have ho := OutputLayer.forwardprop_ok (o := n.output) (x := outL (n.hidden.map fun p => (s p).base) x) (by omega) (by omega) (by rw [hf2.1, h4])
  have hl : (n.output.toLayer.fwd (outL (n.hidden.map fun p => (s p).base) x)).a = Spec.denseNet (n.params s) x := by
    rw [← outL_net]
    unfold Net.layers Net.hiddenLayers
    rw [outL_append]
    rfl
  refine ⟨s', { n with input := (InputLayer.forwardprop n.input x).2, output := { n.output with toLayer := n.output.toLayer.fwd (outL (n.hidden.map fun p => (s p).base) x) }, result := Spec.denseNet (n.params s) x }, ?_, rfl, ?_, ?_, rfl, h2, ?_⟩
  · unfold Net.forwardprop
    show (do
      let (current, s) ← Net.hiddenForward junk n.hidden s x
      let (result, output) ← n.output.forwardprop current
      .ok (result, s, { n with input := (InputLayer.forwardprop n.input x).2, output := output, result := result }) : Res _) = _
    rw [e, ok_bind]
    simp only
    rw [ho, ok_bind]
    simp only
    rw [hl]
  · rw [← hl]; exact h3
  · rw [← hl]
    show n.output.W.nc = q
    exact hf2.2.2
  · unfold Net.params Net.layers Net.hiddenLayers
    simp only [List.map_append, List.map_map]
    congr 1
    refine List.map_congr_left fun r _ => ?_
    show ((s' r).base.actfunc.act, (s' r).base.W) = _
    rw [(h2 r).2.1, (h2 r).2.2.1]
    rfl

/-- **C98** (outputs, compared). It returns what a network returns that has an object of its own, with the same weights and activation, at each position. -/
theorem C98_untied_partial {junk junk' : Nat → Nat → ℝ} {s s' : Store} {n n' : Net} {p q : Nat} {x : Mat ℝ} (h : Spec.Tied s n p q) (h' : n'.WF s' p q) (hp : n'.params s' = n.params s)
    (hr : 0 < x.nr) (hc : x.nc = p) :
    ∃ out s1 n1 s2 n2, n.forwardprop junk s x = .ok (out, s1, n1) ∧ n'.forwardprop junk' s' x = .ok (out, s2, n2) := by
  obtain ⟨s1, n1, e1, -⟩ := C98_outputs_partial (junk := junk) h hr hc
  obtain ⟨s2, n2, e2, -⟩ := C28_network (junk := junk') h' hr hc
  rw [hp] at e2
  exact ⟨_, s1, n1, s2, n2, e1, e2⟩

/-! ### Saving and loading -/

/-- What loading leaves in the objects when an object may occur several times: what was read for one of its positions. -/
theorem loadHidden_tied (io : TextIO) : ∀ (ps : List Nat) (s : Store) (st : InStream),
    ∃ s', loadHidden io ps s st = .ok (s', readSt io st ((ps.map fun p => (s p).base.W.size).sum)) ∧ (∀ q, q ∉ ps → s' q = s q) ∧
      ∀ q ∈ ps, ∃ l, ps[l]? = some q ∧ s' q = (s q).setw (loaded io (readSt io st (((ps.take l).map fun p => (s p).base.W.size).sum)) (s q).base.W)
  | [], s, st => ⟨s, rfl, fun _ _ => rfl, by simp⟩
  | p :: ps, s, st => by
    obtain ⟨s', h1, h2, h3⟩ := loadHidden_tied io ps (s.put p ((s p).setw (loaded io st (s p).base.W))) (readSt io st (s p).base.W.size)
    have hsz : ∀ q, (s.put p ((s p).setw (loaded io st (s p).base.W)) q).base.W.size = (s q).base.W.size := by
      intro q
      by_cases h : q = p
      · subst h; rw [put_same]; rfl
      · rw [put_other h]
    have hmap : ∀ qs : List Nat, (qs.map fun q => (s.put p ((s p).setw (loaded io st (s p).base.W)) q).base.W.size) = qs.map fun q => (s q).base.W.size :=
      fun qs => List.map_congr_left fun q _ => hsz q
    refine ⟨s', ?_, ?_, ?_⟩
    · unfold loadHidden
      rw [loadMat_ok, ok_bind]
      simp only
      rw [show (Mat.of (s p).base.W.nr (s p).base.W.nc fun i j => readV io st (i * (s p).base.W.nc + j)) = loaded io st (s p).base.W from rfl, h1]
      rw [hmap ps, ← readSt_add]
      simp
    · intro q hq
      rw [h2 q (fun h => hq (by simp [h])), put_other (fun h => hq (by simp [h]))]
    · intro q hq
      by_cases hqs : q ∈ ps
      · obtain ⟨l, e1, e2⟩ := h3 q hqs
        refine ⟨l + 1, by simpa using e1, ?_⟩
        rw [e2, hmap, ← readSt_add]
        by_cases h : q = p
        · subst h
          rw [put_same]
          simp only [List.take_succ_cons, List.map_cons, List.sum_cons]
          rfl
        · rw [put_other h]
          simp
      · obtain rfl : q = p := by simpa [hqs] using hq
        refine ⟨0, rfl, ?_⟩
        rw [h2 q hqs, put_same]
        rfl

/-- **C98** (saving and loading). Saving a network and loading the file into a network with the same shapes and the same layer objects at the same positions gives
every layer the saved weights, each rounded as text does, however often an object occurs. -/
theorem C98_roundtrip_partial {io : TextIO} {round : ℝ → ℝ} (hc : Spec.Converts io round) {s s' : Store} {n n' : Net} (hsh : Spec.SameShapes s n s' n') (hh : n'.hidden = n.hidden)
    (path : String) (fs : Files) :
    ∃ fs' s'' n'', n.save io s path true fs = .ok fs' ∧ n'.load io s' path fs' = .ok (s'', n'') ∧ Spec.OnlyWeights s' n' s'' n'' ∧
      (n''.layers s'').map (·.W) = (n.layers s).map (fun L => L.W.map round) := by
  set m : Net := { n' with hidden := List.range n'.hidden.length } with hm
  set t : Store := fun i => match n'.hidden[i]? with
    | some p => s' p
    | none => s' 0 with ht
  have hlay : m.layers t = n'.layers s' := by
    unfold Net.layers Net.hiddenLayers
    congr 1
    refine List.ext_getElem? fun l => ?_
    rw [List.getElem?_map, List.getElem?_map]
    show Option.map _ (List.range n'.hidden.length)[l]? = _
    by_cases hl : l < n'.hidden.length
    · rw [List.getElem?_range hl, List.getElem?_eq_getElem hl]
      simp only [Option.map_some, ht, List.getElem?_eq_getElem hl]
    · rw [List.getElem?_eq_none_iff.2 (by simp; omega), List.getElem?_eq_none_iff.2 (by omega)]
      rfl
  have hsh' : Spec.SameShapes s n t m := by
    unfold Spec.SameShapes at hsh ⊢
    rw [hlay]
    exact hsh
  obtain ⟨fs', t2, m2, e1, -, e2, -, e4, -⟩ := C35_roundtrip hc hsh' (List.nodup_range) path fs
  obtain ⟨text, hf⟩ : ∃ text, fs' path = some text := by
    unfold Net.save at e1
    rw [if_pos rfl, saveText_ok, ok_bind] at e1
    cases e1
    exact ⟨_, if_pos rfl⟩
  obtain ⟨t3, m3, f1, -, f3⟩ := load_values (io := io) (s := t) (n := m) (List.nodup_range) hf
  rw [e2] at f1
  cases Except.ok.inj f1
  have hw : m.weights t = n'.weights s' := by unfold Net.weights; rw [hlay]
  have hw2 : m2.weights t2 = (n.weights s).map (Mat.map round) := by
    unfold Net.weights
    rw [e4, List.map_map]
    rfl
  rw [hw, hw2] at f3
  obtain ⟨s'', n'', g1, g2, -⟩ := C36_any_file io s' n' path fs'
  refine ⟨fs', s'', n'', e1, g1, g2, ?_⟩
  obtain ⟨s1, h1, h2, h3⟩ := loadHidden_tied io n'.hidden s' ⟨text, true⟩
  unfold Net.load at g1
  rw [hf] at g1
  simp only at g1
  rw [h1, ok_bind] at g1
  simp only at g1
  rw [loadMat_ok, ok_bind] at g1
  cases g1
  have hws : n'.weights s' = n'.hidden.map (fun p => (s' p).base.W) ++ [n'.output.W] := by
    unfold Net.weights Net.layers Net.hiddenLayers
    rw [List.map_append, List.map_map]
    rfl
  have hwn : n.weights s = n.hidden.map (fun p => (s p).base.W) ++ [n.output.W] := by
    unfold Net.weights Net.layers Net.hiddenLayers
    rw [List.map_append, List.map_map]
    rfl
  have hlen : (n'.hidden.map fun p => (s' p).base.W).length = n'.hidden.length := by simp
  have hlen2 : (n.hidden.map fun p => (s p).base.W).length = n'.hidden.length := by rw [hh]; simp
  have goal2 : (n.layers s).map (fun L => L.W.map round) = (n.weights s).map (Mat.map round) := by
    unfold Net.weights
    rw [List.map_map]
    rfl
  rw [goal2, hwn, List.map_append, List.map_map]
  unfold Net.layers Net.hiddenLayers
  rw [List.map_append, List.map_map]
  congr 1
  · show n'.hidden.map _ = _
    rw [hh]
    refine List.map_congr_left fun q hq => ?_
    rw [← hh] at hq
    obtain ⟨l, k1, k2⟩ := h3 q hq
    obtain ⟨hl, -⟩ := List.getElem?_eq_some_iff.1 k1
    show (s'' q).base.W = (s q).base.W.map round
    rw [k2]
    have hv := f3 l (s' q).base.W (by rw [hws, List.getElem?_append_left (by rw [hlen]; exact hl), List.getElem?_map, k1]; rfl)
    rw [hwn, List.getElem?_map, List.getElem?_append_left (by rw [hlen2]; exact hl), List.getElem?_map, ← hh, k1, hws,
      List.take_append_of_le_length (by rw [hlen]; omega), ← List.map_take, List.map_map] at hv
    simp only [Option.map_some, Option.some.injEq] at hv
    rw [hv]
    rfl
  · have hv := f3 n'.hidden.length n'.output.W (by
      rw [hws, List.getElem?_append_right (by rw [hlen]), hlen, Nat.sub_self]; rfl)
    rw [hwn, List.getElem?_map, List.getElem?_append_right (by rw [hlen2]), hlen2, Nat.sub_self, hws, List.take_append_of_le_length (by rw [hlen]),
      List.take_of_length_le (by rw [hlen]), List.map_map] at hv
    simp only [List.getElem?_cons_zero, Option.map_some, Option.some.injEq] at hv
    simp only [List.map_cons, List.map_nil]
    rw [hv]
    rfl

/-! ### Training -/

/-- A 1x1 matrix. -/
def m11 (v : ℝ) : Mat ℝ := Mat.of 1 1 (fun _ _ => v)

/-- The weights of a layer with one input and one unit: bias and weight. -/
def w21 (b w : ℝ) : Mat ℝ := Mat.of 2 1 (fun i _ => if i = 0 then b else w)

/-- A linear layer with one input and one unit. -/
def lin11 (r b w : ℝ) : Layer := { exLayer Act.identity (w21 b w) with lrate := r }

/-- A 1-1-1-1 linear network with rate `r` and with one layer object, under the name 7, as its first and as its second hidden layer; `b` and `w` are bias and weight of the output. -/
def tieNet (r b w : ℝ) : Net :=
  { result := .empty, cost := Quadratic.cost, costd := Quadratic.costd, input := exLayer Act.identity .empty, hidden := [7, 7],
    output := { lin11 r b w with cost := Quadratic.cost, costd := Quadratic.costd, y := .empty } }

/-- The object. -/
def tieStore (r b w : ℝ) : Store := fun _ => ⟨lin11 r b w, .dense⟩

theorem m11_f (v : ℝ) : (m11 v).f 0 0 = v := Mat.of_f' (by omega) (by omega)

theorem m11_ext {m : Mat ℝ} {v : ℝ} (h1 : m.nr = 1) (h2 : m.nc = 1) (h : m.f 0 0 = v) : m = m11 v := by
  refine Mat.ext' h1 h2 fun i j hi hj => ?_
  obtain rfl : i = 0 := by omega
  obtain rfl : j = 0 := by omega
  rw [h, m11_f]

theorem w21_ext {m : Mat ℝ} {b w : ℝ} (h1 : m.nr = 2) (h2 : m.nc = 1) (h : m.f 0 0 = b) (h' : m.f 1 0 = w) : m = w21 b w := by
  refine Mat.ext' h1 h2 fun i j hi hj => ?_
  obtain rfl : j = 0 := by omega
  rw [h1] at hi
  unfold w21
  rw [Mat.of_f' hi (by omega)]
  rcases Nat.lt_or_ge i 1 with h3 | h3
  · obtain rfl : i = 0 := by omega
    rw [h, if_pos rfl]
  · obtain rfl : i = 1 := by omega
    rw [h', if_neg (by omega)]

theorem w21_f0 (b w : ℝ) : (w21 b w).f 0 0 = b := (Mat.of_f' (by omega) (by omega)).trans (if_pos rfl)
theorem w21_f1 (b w : ℝ) : (w21 b w).f 1 0 = w := (Mat.of_f' (by omega) (by omega)).trans (if_neg (by omega))

theorem pre11 (b w v : ℝ) : Spec.pre (w21 b w) (m11 v) = m11 (b + v * w) := by
  refine m11_ext rfl rfl ?_
  unfold Spec.pre
  rw [Mat.of_f' (by show 0 < 1; omega) (by show 0 < 1; omega)]
  show _ + ∑ k ∈ range 1, _ = _
  rw [sum_range_one, w21_f0, w21_f1, m11_f]

theorem id11 (v : ℝ) : (m11 v).map Act.identity.act = m11 v := by
  refine m11_ext rfl rfl ?_
  rw [Mat.map_f' (by show 0 < 1; omega) (by show 0 < 1; omega), m11_f]
  rfl

theorem fwd11 {L : Layer} {b w : ℝ} (hW : L.W = w21 b w) (ha : L.actfunc = Act.identity) (v : ℝ) :
    L.fwd (m11 v) = { L with pa := ones1 (m11 v), z := m11 (b + v * w), a := m11 (b + v * w) } := by
  unfold Layer.fwd
  rw [hW, ha, pre11, id11]

theorem dz11 {L : Layer} (ha : L.actfunc = Act.identity) (d : ℝ) : L.dz (m11 d) = m11 d := by
  refine m11_ext rfl rfl ?_
  unfold Layer.dz
  rw [Mat.of_f' (by show 0 < 1; omega) (by show 0 < 1; omega), m11_f, ha]
  show d * 1 = d
  ring

theorem reg11 {L : Layer} {b w u : ℝ} (hW : L.W = w21 b w) (hl : L.lambda = 0) (hp : L.pa = ones1 (m11 u)) (d : ℝ) : L.regGrad (m11 d) = w21 d (u * d) := by
  have hg : ∀ k, k < 2 → (Layer.gradOf (ones1 (m11 u)) (m11 d)).f k 0 = (ones1 (m11 u)).f 0 k * d := by
    intro k hk
    unfold Layer.gradOf
    rw [Mat.of_f' (by exact hk) (by show 0 < 1; omega)]
    show ∑ i ∈ range 1, _ = _
    rw [sum_range_one, m11_f]
  have hnr : L.W.nr = 2 := by rw [hW]; rfl
  have hnc : L.W.nc = 1 := by rw [hW]; rfl
  refine w21_ext hnr hnc ?_ ?_
  · unfold Layer.regGrad
    rw [Mat.of_f' (by omega) (by omega), hp, hl, hg 0 (by omega)]
    unfold ones1
    rw [Mat.of_f' (by show 0 < 1; omega) (by show 0 < 2; omega)]
    simp
  · unfold Layer.regGrad
    rw [Mat.of_f' (by omega) (by omega), hp, hl, hg 1 (by omega)]
    unfold ones1
    rw [Mat.of_f' (by show 0 < 1; omega) (by show 1 < 2; omega)]
    simp only [one_ne_zero, if_false, Nat.sub_self, m11_f]
    ring

theorem back11 (b w d : ℝ) : Layer.backOf (m11 d) (w21 b w) = m11 (d * w) := by
  refine m11_ext rfl rfl ?_
  unfold Layer.backOf
  rw [Mat.of_f' (by show 0 < 1; omega) (by show 0 < 2 - 1; omega)]
  show ∑ j ∈ range 1, _ = _
  rw [sum_range_one, m11_f, w21_f1]

theorem upd11 {L : Layer} {b w g h : ℝ} (hW : L.W = w21 b w) (hg : L.grad = w21 g h) : L.update = .ok { L with W := w21 (b - L.lrate * g) (w - L.lrate * h) } := by
  rw [Layer.update_ok ⟨by rw [hW, hg]; rfl, by rw [hW, hg]; rfl⟩]
  unfold Layer.upd
  congr 2
  refine w21_ext (by rw [hW]; rfl) (by rw [hW]; rfl) ?_ ?_
  · rw [Mat.of_f' (by rw [hW]; show 0 < 2; omega) (by rw [hW]; show 0 < 1; omega), hW, hg, w21_f0, w21_f0]
  · rw [Mat.of_f' (by rw [hW]; show 1 < 2; omega) (by rw [hW]; show 0 < 1; omega), hW, hg, w21_f1, w21_f1]

theorem forwardprop11 {L : Layer} {b w : ℝ} (hW : L.W = w21 b w) (ha : L.actfunc = Act.identity) (v : ℝ) :
    L.forwardprop (m11 v) = .ok (m11 (b + v * w), { L with pa := ones1 (m11 v), z := m11 (b + v * w), a := m11 (b + v * w) }) := by
  rw [Layer.forwardprop_ok (by show 0 < 1; omega) (by show 0 < 1; omega) (by rw [hW]; rfl), fwd11 hW ha]

theorem backprop11 {L : Layer} {b w u v v' : ℝ} (hW : L.W = w21 b w) (ha : L.actfunc = Act.identity) (hl : L.lambda = 0) (hp : L.pa = ones1 (m11 u)) (hz : L.z = m11 v) (haa : L.a = m11 v') (d : ℝ) :
    L.backprop (m11 d) = .ok (m11 (d * w), { L with delta := m11 d, grad := w21 d (u * d) }) := by
  rw [Layer.backprop_ok (m := 1) ⟨by rw [hp]; rfl, by rw [hp, hW]; rfl, by rw [hz]; rfl, by rw [hz, hW]; rfl, by rw [haa]; rfl, by rw [haa, hW]; rfl⟩ (by omega) (by rw [hW]; show 2 ≤ 2; omega) rfl
    (by rw [hW]; rfl)]
  unfold Layer.bwd
  rw [dz11 ha, reg11 hW hl hp, hW, back11]

theorem hforward11 (junk : Nat → Nat → ℝ) {L : Layer} {b w : ℝ} (hW : L.W = w21 b w) (ha : L.actfunc = Act.identity) (v : ℝ) :
    HLayer.forwardprop junk ⟨L, .dense⟩ (m11 v) = .ok (m11 (b + v * w), ⟨{ L with pa := ones1 (m11 v), z := m11 (b + v * w), a := m11 (b + v * w) }, .dense⟩) := by
  unfold HLayer.forwardprop
  simp only
  rw [forwardprop11 hW ha, ok_bind]

theorem hbackward11 (junk : Nat → Nat → ℝ) {L : Layer} {b w u v v' : ℝ} (hW : L.W = w21 b w) (ha : L.actfunc = Act.identity) (hl : L.lambda = 0) (hp : L.pa = ones1 (m11 u)) (hz : L.z = m11 v)
    (haa : L.a = m11 v') (d : ℝ) : HLayer.backprop junk ⟨L, .dense⟩ (m11 d) = .ok (m11 (d * w), ⟨{ L with delta := m11 d, grad := w21 d (u * d) }, .dense⟩) := by
  unfold HLayer.backprop
  simp only
  rw [backprop11 hW ha hl hp hz haa, ok_bind]

theorem hupdate11 {L : Layer} {b w g h : ℝ} (hW : L.W = w21 b w) (hg : L.grad = w21 g h) :
    HLayer.update ⟨L, .dense⟩ = .ok ⟨{ L with W := w21 (b - L.lrate * g) (w - L.lrate * h) }, .dense⟩ := by
  unfold HLayer.update
  simp only
  rw [upd11 hW hg, ok_bind]

/-- Forward pass of a network with one object as both hidden layers. -/
theorem tie_forward (junk : Nat → Nat → ℝ) {s : Store} {n : Net} {L : Layer} {b w c e : ℝ} (hh : n.hidden = [7, 7]) (hs : s 7 = ⟨L, .dense⟩) (hW : L.W = w21 b w) (ha : L.actfunc = Act.identity)
    (hoW : n.output.W = w21 c e) (hoa : n.output.actfunc = Act.identity) (v : ℝ) :
    ∃ s' n', n.forwardprop junk s (m11 v) = .ok (m11 (c + (b + (b + v * w) * w) * e), s', n') ∧ n'.hidden = [7, 7] ∧
      s' 7 = ⟨{ L with pa := ones1 (m11 (b + v * w)), z := m11 (b + (b + v * w) * w), a := m11 (b + (b + v * w) * w) }, .dense⟩ ∧
      n'.output = { n.output with pa := ones1 (m11 (b + (b + v * w) * w)), z := m11 (c + (b + (b + v * w) * w) * e), a := m11 (c + (b + (b + v * w) * w) * e) } ∧
      n'.cost = n.cost := by
  have e1 : Net.hiddenForward junk [7, 7] s (m11 v) = .ok (m11 (b + (b + v * w) * w), (s.put 7 ⟨{ L with pa := ones1 (m11 v), z := m11 (b + v * w), a := m11 (b + v * w) }, .dense⟩).put 7
      ⟨{ L with pa := ones1 (m11 (b + v * w)), z := m11 (b + (b + v * w) * w), a := m11 (b + (b + v * w) * w) }, .dense⟩) := by
    simp only [Net.hiddenForward]
    rw [hs, hforward11 junk hW ha, ok_bind]
    simp only
    rw [put_same, hforward11 junk (L := { L with pa := ones1 (m11 v), z := m11 (b + v * w), a := m11 (b + v * w) }) (b := b) (w := w) hW ha, ok_bind]
  refine ⟨(s.put 7 ⟨{ L with pa := ones1 (m11 v), z := m11 (b + v * w), a := m11 (b + v * w) }, .dense⟩).put 7
      ⟨{ L with pa := ones1 (m11 (b + v * w)), z := m11 (b + (b + v * w) * w), a := m11 (b + (b + v * w) * w) }, .dense⟩,
    { n with input := (InputLayer.forwardprop n.input (m11 v)).2, result := m11 (c + (b + (b + v * w) * w) * e), output := { n.output with pa := ones1 (m11 (b + (b + v * w) * w)), z := m11 (c + (b + (b + v * w) * w) * e), a := m11 (c + (b + (b + v * w) * w) * e) } },
    ?_, hh, put_same, rfl, rfl⟩
  · unfold Net.forwardprop
    show (do
      let (current, s) ← Net.hiddenForward junk n.hidden s (m11 v)
      let (result, output) ← n.output.forwardprop current
      .ok (result, s, { n with input := (InputLayer.forwardprop n.input (m11 v)).2, output := output, result := result }) : Res _) = _
    rw [hh, e1, ok_bind]
    simp only
    unfold OutputLayer.forwardprop
    rw [forwardprop11 hoW hoa, ok_bind]
    rfl

/-- One training step of the tied network on the sample `1` with label `0`. -/
theorem tie_step (junk : Nat → Nat → ℝ) (r : ℝ) : ∃ s1 n1, (tieNet r 0 1).trainOn junk (tieStore r 0 (-1)) (m11 1) (m11 0) = .ok (s1, n1) ∧
    n1.hidden = [7, 7] ∧ (s1 7).kind = .dense ∧ (s1 7).base.W = w21 (2 * r) (-1 - 2 * r) ∧ (s1 7).base.actfunc = Act.identity ∧
    n1.output.W = w21 (-r) (1 - r) ∧ n1.output.actfunc = Act.identity ∧ n1.cost = Quadratic.cost := by
  obtain ⟨s1, n1, e1, h1, h2, h3, h4⟩ := tie_forward junk (s := tieStore r 0 (-1)) (n := tieNet r 0 1) (L := lin11 r 0 (-1)) (b := 0) (w := -1) (c := 0) (e := 1) rfl rfl rfl rfl rfl rfl 1
  have z1 : (0 + (1 : ℝ) * -1) = -1 := by norm_num
  have z2 : (0 + -1 * -1 : ℝ) = 1 := by norm_num
  have z3 : (0 + 1 * 1 : ℝ) = 1 := by norm_num
  rw [z1, z2, z3] at h3
  rw [z1, z2] at h2
  have hq : n1.output.costd (m11 0) n1.output.a n1.output.z = .ok (m11 1) := by
    rw [h3]
    show Quadratic.costd (m11 0) (m11 1) (m11 1) = _
    unfold Quadratic.costd
    rw [diff_costd (by rfl) (by rfl)]
    congr 1
    refine m11_ext rfl rfl ?_
    rw [Mat.of_f' (by show 0 < 1; omega) (by show 0 < 1; omega), m11_f, m11_f]
    show (1 - 0) / ((1 : Nat) : ℝ) = 1
    norm_num
  have hob := OutputLayer.backprop_ok (o := n1.output) (m := 1) (y := m11 0) (D := m11 1) (by rw [h3]; exact ⟨rfl, rfl, rfl, rfl, rfl, rfl⟩) (by rw [h3]; show 1 ≤ 2; omega) hq rfl (by rw [h3]; rfl)
  have hoW : n1.output.W = w21 0 1 := by rw [h3]; rfl
  rw [hoW, back11] at hob
  have hog : (n1.output.bwd (m11 0) (m11 1)).grad = w21 1 (1 * 1) := by
    show n1.output.toLayer.regGrad (m11 1) = _
    exact reg11 (b := 0) (w := 1) hoW (by rw [h3]; rfl) (by rw [h3]) 1
  have e2 : ∃ s2, Net.hiddenBackward junk [7, 7] s1 (m11 (1 * 1)) = .ok s2 ∧ ∃ L : Layer, s2 7 = ⟨L, .dense⟩ ∧ L.W = w21 0 (-1) ∧ L.grad = w21 (1 * 1 * -1) (-1 * (1 * 1 * -1)) ∧ L.lrate = r ∧ L.actfunc = Act.identity := by
    simp only [Net.hiddenBackward]
    rw [h2, hbackward11 junk (b := 0) (w := -1) (u := -1) (v := 1) (v' := 1) rfl rfl rfl rfl rfl rfl, ok_bind]
    simp only
    rw [put_same, hbackward11 junk (b := 0) (w := -1) (u := -1) (v := 1) (v' := 1) rfl rfl rfl rfl rfl rfl, ok_bind]
    exact ⟨_, rfl, _, put_same, rfl, rfl, rfl, rfl⟩
  obtain ⟨s2, e2, L, k1, k2, k3, k4, k5⟩ := e2
  have e3 : ∃ s3, Net.hiddenUpdate [7, 7] s2 = .ok s3 ∧ ∃ M : Layer, s3 7 = ⟨M, .dense⟩ ∧ M.W = w21 (2 * r) (-1 - 2 * r) ∧ M.actfunc = Act.identity := by
    simp only [Net.hiddenUpdate]
    rw [k1, hupdate11 k2 k3, ok_bind]
    rw [put_same, hupdate11 (b := 0 - L.lrate * (1 * 1 * -1)) (w := -1 - L.lrate * (-1 * (1 * 1 * -1))) rfl (by exact k3), ok_bind]
    refine ⟨_, rfl, _, put_same, ?_, k5⟩
    simp only [k4]
    congr 1 <;> ring
  obtain ⟨s3, e3, M, q1, q2, q3⟩ := e3
  refine ⟨s3, { n1 with output := { (n1.output.bwd (m11 0) (m11 1)) with W := w21 (-r) (1 - r) } }, ?_, h1, by rw [q1], by rw [q1]; exact q2, by rw [q1]; exact q3, rfl, by rw [h3]; rfl, h4⟩
  unfold Net.trainOn
  rw [e1, ok_bind]
  simp only
  unfold Net.backprop
  rw [hob, ok_bind]
  simp only
  rw [h1]
  rw [show ([7, 7] : List Nat).reverse = [7, 7] from rfl, e2, ok_bind, ok_bind]
  simp only
  unfold Net.update
  simp only
  rw [upd11 (b := 0) (w := 1) (by exact hoW) hog, ok_bind, e3, ok_bind]
  congr 4
  rw [show (n1.output.bwd (m11 0) (m11 1)).toLayer.lrate = r from by show n1.output.lrate = r; rw [h3]; rfl]
  congr 2 <;> ring

theorem cost11 {n : Net} (h : n.cost = Quadratic.cost) (a : ℝ) : n.computecost (m11 a) (m11 0) = .ok (a * a / 2) := by
  unfold Net.computecost
  rw [h, quadratic_cost (by rfl) (by rfl), ok_bind]
  congr 1
  refine (C27_sums _).2.1.trans ?_
  show ∑ i ∈ range 1, ∑ j ∈ range 1, _ = _
  rw [sum_range_one, sum_range_one, Mat.of_f' (by show 0 < 1; omega) (by show 0 < 1; omega), m11_f, m11_f]
  show (0 - a) * (0 - a) / 2 / ((1 : Nat) : ℝ) = _
  push_cast
  ring

/-- **C98 is false of training.** With one layer object in two places `backprop` and `update` do not follow the gradient: for the network below, a training step with *any* learning rate
`0 < r < 1/2` raises the cost of the very sample it was trained on. -/
theorem C98_training_refuted (junk : Nat → Nat → ℝ) {r : ℝ} (h0 : 0 < r) (h1 : r < 1 / 2) : Spec.Tied (tieStore r 0 (-1)) (tieNet r 0 1) 1 1 ∧
    ∃ out s1 n1 s2 n2 out' s3 n3 c c', (tieNet r 0 1).forwardprop junk (tieStore r 0 (-1)) (m11 1) = .ok (out, s1, n1) ∧
      (tieNet r 0 1).trainOn junk (tieStore r 0 (-1)) (m11 1) (m11 0) = .ok (s2, n2) ∧ n2.forwardprop junk s2 (m11 1) = .ok (out', s3, n3) ∧
      (tieNet r 0 1).computecost out (m11 0) = .ok c ∧ n2.computecost out' (m11 0) = .ok c' ∧ c < c' := by
  refine ⟨⟨?_, by omega, ?_⟩, ?_⟩
  · intro id _; rfl
  · simp [Net.layers, Net.hiddenLayers, tieNet, tieStore, lin11, exLayer, w21, Spec.Fits]
  obtain ⟨s1, n1, e1, -⟩ := tie_forward junk (s := tieStore r 0 (-1)) (n := tieNet r 0 1) (L := lin11 r 0 (-1)) (b := 0) (w := -1) (c := 0) (e := 1) rfl rfl rfl rfl rfl rfl 1
  obtain ⟨s2, n2, e2, k1, k2, k3, k4, k5, k6, k7⟩ := tie_step junk r
  obtain ⟨s3, n3, e3, -⟩ := tie_forward junk (s := s2) (n := n2) (L := (s2 7).base) k1 (by rw [← k2]) k3 k4 k5 k6 1
  refine ⟨_, s1, n1, s2, n2, _, s3, n3, _, _, e1, e2, e3, cost11 rfl _, cost11 k7 _, ?_⟩
  have : -r + (2 * r + (2 * r + 1 * (-1 - 2 * r)) * (-1 - 2 * r)) * (1 - r) = 1 + 2 * r * (1 - 2 * r) := by ring
  rw [this]
  have h2 : 0 < r * (1 - 2 * r) := mul_pos h0 (by linarith)
  nlinarith

/-- A concrete network with one object at two positions, for `C98_outputs_partial`, `C98_untied_partial` and `C98_roundtrip_partial`. -/
example : Spec.Tied (tieStore 1 2 3) (tieNet 1 4 5) 1 1 ∧ (tieNet 1 4 5).hidden = [7, 7] ∧ Spec.SameShapes (tieStore 1 2 3) (tieNet 1 4 5) (tieStore 1 6 7) (tieNet 1 8 9) ∧
    ({ tieNet 1 4 5 with hidden := [7, 8] } : Net).WF (tieStore 1 2 3) 1 1 ∧ ({ tieNet 1 4 5 with hidden := [7, 8] } : Net).params (tieStore 1 2 3) = (tieNet 1 4 5).params (tieStore 1 2 3) := by
  refine ⟨⟨fun _ _ => rfl, by omega, ?_⟩, rfl, rfl, ⟨by simp, fun _ _ => rfl, by omega, ?_⟩, rfl⟩
  · simp [Net.layers, Net.hiddenLayers, tieNet, tieStore, lin11, exLayer, w21, Spec.Fits]
  · simp [Net.layers, Net.hiddenLayers, tieNet, tieStore, lin11, exLayer, w21, Spec.Fits]

end
end Nnet.NN
