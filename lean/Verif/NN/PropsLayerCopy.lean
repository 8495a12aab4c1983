import Verif.NN.SpecialCopy
import Verif.NN.PropsConv
import Verif.NN.PropsSpecial
/-!
# C96: copies of layers
-/
namespace Nnet.NN
noncomputable section

/-! ## Specification -/

/-- A call of a member function of a layer that computes or changes something. -/
inductive Spec.LayerCall where
  | forwardprop (x : Mat ℝ)
  | backprop (d : Mat ℝ)
  | update
  | updateWith (g : Mat ℝ)
  | randominit (s : ℝ)
  | setlrate (r : ℝ)

/-- The answer to a call (a matrix for the two passes) and the layer after it. -/
def Spec.LayerCall.run (dist : Draws) (junk : Nat → Nat → ℝ) (h : HLayer) : Spec.LayerCall → Res (Option (Mat ℝ) × HLayer)
  | .forwardprop x => do let (r, h) ← h.forwardprop junk x; .ok (some r, h)
  | .backprop d => do let (r, h) ← h.backprop junk d; .ok (some r, h)
  | .update => do let h ← h.update; .ok (none, h)
  | .updateWith g => do let h ← h.updateWith g; .ok (none, h)
  | .randominit s => do let h ← h.randominit dist s; .ok (none, h)
  | .setlrate r => .ok (none, h.setlrate r)

/-- The answers to a sequence of calls, or the exception that ends it. -/
def Spec.answers (dist : Draws) (junk : Nat → Nat → ℝ) : HLayer → List Spec.LayerCall → Res (List (Option (Mat ℝ)))
  | _, [] => .ok []
  | h, c :: cs => do
    let (r, h) ← c.run dist junk h
    let rs ← Spec.answers dist junk h cs
    .ok (r :: rs)

/-- No sequence of calls tells the two layers apart. -/
def Spec.Alike (dist : Draws) (junk : Nat → Nat → ℝ) (h h' : HLayer) : Prop := ∀ cs, Spec.answers dist junk h' cs = Spec.answers dist junk h cs

/-! ## Proofs -/

/-- Both fail in the same way, or both give the same answer and end in states related by `R`. -/
def Step {α : Type} (R : HLayer → HLayer → Prop) (a b : Res (α × HLayer)) : Prop :=
  (∃ e, a = .error e ∧ b = .error e) ∨ ∃ r g g', a = .ok (r, g) ∧ b = .ok (r, g') ∧ R g g'

theorem alike_of (dist : Draws) (junk : Nat → Nat → ℝ) {R : HLayer → HLayer → Prop} (hR : ∀ h h', R h h' → ∀ c : Spec.LayerCall, Step R (c.run dist junk h) (c.run dist junk h')) :
    ∀ {h h' : HLayer}, R h h' → Spec.Alike dist junk h h' := by
  intro h h' hr cs
  induction cs generalizing h h' with
  | nil => rfl
  | cons c cs ih =>
    unfold Spec.answers
    rcases hR h h' hr c with ⟨e, h1, h2⟩ | ⟨r, g, g', h1, h2, h3⟩
    · rw [h1, h2]
    · rw [h1, h2, ok_bind, ok_bind]
      show (Spec.answers dist junk g' cs >>= _) = (Spec.answers dist junk g cs >>= _)
      rw [ih h3]

theorem layer_copy_eq (L : Layer) : L.copy = L := rfl

theorem softmax_steps (dist : Draws) (junk : Nat → Nat → ℝ) (h h' : HLayer) (hr : ∃ L p p', h = ⟨L, .softmax p⟩ ∧ h' = ⟨L, .softmax p'⟩) (c : Spec.LayerCall) :
    Step (fun h h' => ∃ L p p', h = ⟨L, .softmax p⟩ ∧ h' = ⟨L, .softmax p'⟩) (c.run dist junk h) (c.run dist junk h') := by
  obtain ⟨L, p, p', rfl, rfl⟩ := hr
  cases c with
  | forwardprop x =>
    show Step _ (((SoftmaxL.forwardprop x >>= fun r => .ok (r, ⟨L, .softmax r⟩)) : Res (Mat ℝ × HLayer)) >>= fun q => .ok (some q.1, q.2))
      (((SoftmaxL.forwardprop x >>= fun r => .ok (r, ⟨L, .softmax r⟩)) : Res (Mat ℝ × HLayer)) >>= fun q => .ok (some q.1, q.2))
    cases SoftmaxL.forwardprop x with
    | error e => exact Or.inl ⟨e, rfl, rfl⟩
    | ok r => exact Or.inr ⟨_, _, _, rfl, rfl, L, r, r, rfl, rfl⟩
  | backprop d =>
    show Step _ (((SoftmaxL.backprop d >>= fun r => .ok (r, ⟨L, .softmax p⟩)) : Res (Mat ℝ × HLayer)) >>= fun q => .ok (some q.1, q.2))
      (((SoftmaxL.backprop d >>= fun r => .ok (r, ⟨L, .softmax p'⟩)) : Res (Mat ℝ × HLayer)) >>= fun q => .ok (some q.1, q.2))
    cases SoftmaxL.backprop d with
    | error e => exact Or.inl ⟨e, rfl, rfl⟩
    | ok r => exact Or.inr ⟨_, _, _, rfl, rfl, L, p, p', rfl, rfl⟩
  | update => exact Or.inr ⟨_, _, _, rfl, rfl, L, p, p', rfl, rfl⟩
  | updateWith g => exact Or.inr ⟨_, _, _, rfl, rfl, L, p, p', rfl, rfl⟩
  | randominit s => exact Or.inr ⟨_, _, _, rfl, rfl, L, p, p', rfl, rfl⟩
  | setlrate r => exact Or.inr ⟨_, _, _, rfl, rfl, L.setlrate r, p, p', rfl, rfl⟩

/-- **C96** (dense and softmax layers). A copy-constructed or assigned layer answers every sequence of calls like the original, whatever the memory of the new object or the target of the assignment contained, and
its members inherited from `Layer` are equal to the original's. -/
theorem C96_dense_softmax (dist : Draws) (junk : Nat → Nat → ℝ) (mem : LayerMem) (h : HLayer) (hk : h.kind = .dense ∨ ∃ p, h.kind = .softmax p) :
    (∃ h', h.copyCtor dist junk mem = .ok h' ∧ h'.base = h.base ∧ Spec.Alike dist junk h h') ∧
    ∀ self h', HLayer.assign self h = some h' → h'.base = h.base ∧ Spec.Alike dist junk h h' := by
  obtain ⟨L, k⟩ := h
  rcases hk with hk | ⟨p, hk⟩
  · cases hk
    refine ⟨⟨_, rfl, rfl, fun cs => rfl⟩, ?_⟩
    rintro ⟨S, ks⟩ h' e
    cases ks <;> simp [HLayer.assign] at e
    subst e
    exact ⟨rfl, fun cs => rfl⟩
  · cases hk
    refine ⟨⟨_, rfl, rfl, alike_of dist junk (softmax_steps dist junk) ⟨L, p, _, rfl, rfl⟩⟩, ?_⟩
    rintro ⟨S, ks⟩ h' e
    cases ks <;> simp [HLayer.assign] at e
    subst e
    exact ⟨rfl, fun cs => rfl⟩

/-- **C96** (norm layers, assignment). An assigned layer answers every sequence of calls like the original. -/
theorem C96_norm_assign (dist : Draws) (junk : Nat → Nat → ℝ) (L : Layer) (v : ℝ) (self h' : HLayer) (e : HLayer.assign self ⟨L, .norm v⟩ = some h') :
    h'.base = L ∧ Spec.Alike dist junk ⟨L, .norm v⟩ h' := by
  obtain ⟨S, ks⟩ := self
  cases ks <;> simp [HLayer.assign] at e
  subst e
  exact ⟨rfl, fun cs => rfl⟩

/-- **C96** (norm layers, copy construction, what holds). The copy has the members of `Layer` of the original, and the first call of `backprop` brings the two into the same state; from then on they answer alike. -/
theorem C96_norm_copy_partial (dist : Draws) (junk : Nat → Nat → ℝ) (mem : LayerMem) (L : Layer) (v : ℝ) :
    ∃ h', HLayer.copyCtor dist junk mem ⟨L, .norm v⟩ = .ok h' ∧ h'.base = L ∧
      ∀ d, ∃ r r' g g', (HLayer.mk L (.norm v)).backprop junk d = .ok (r, g) ∧ h'.backprop junk d = .ok (r', g') ∧ Spec.Alike dist junk g g' :=
  ⟨_, rfl, rfl, fun _ => ⟨_, _, _, _, rfl, rfl, fun _ => rfl⟩⟩

/-- The full property is false of norm layers: a copy answers its first call with what its memory contained. -/
theorem C96_norm_copy_refuted (dist : Draws) (junk : Nat → Nat → ℝ) (L : Layer) : ∃ (mem : LayerMem) (h' : HLayer) (x r r' : Mat ℝ) (g g' : HLayer),
    HLayer.copyCtor dist junk mem ⟨L, .norm 1⟩ = .ok h' ∧ (HLayer.mk L (.norm 1)).forwardprop junk x = .ok (r, g) ∧ h'.forwardprop junk x = .ok (r', g') ∧ r ≠ r' := by
  let mem : LayerMem := ⟨2, ⟨0, 0, 0, 0, 0, 0, 0, 0, 0, 0, 0, []⟩⟩
  let x : Mat ℝ := Mat.of 1 1 (fun _ _ => 1)
  have hx : (Finset.range x.nr ×ˢ Finset.range x.nc).Nonempty := ⟨(0, 0), by simp [x]⟩
  have key : ∀ v : ℝ, v ≠ 0 → ∃ g, (HLayer.mk L (.norm v)).forwardprop junk x = .ok (x.divS v, g) := by
    intro v hv
    unfold HLayer.forwardprop Norm.forwardprop Mat.maxElem Mat.minElem
    simp only [dif_pos hx, ok_bind, if_neg hv]
    exact ⟨_, rfl⟩
  obtain ⟨g, e⟩ := key 1 one_ne_zero
  obtain ⟨g', e'⟩ := key 2 two_ne_zero
  refine ⟨mem, _, x, _, _, g, g', rfl, e, e', fun hh => ?_⟩
  have := congrArg (fun m => Mat.f m 0 0) hh
  simp only [Mat.divS_f] at this
  simp [x, Mat.of_f] at this

/-! ## Pooling layers -/

/-- Everything the passes of a pooling layer read is the same. -/
def SamePool (h h' : HLayer) : Prop := ∃ (L L' : Layer) (c c' : Conv), L'.actfunc = L.actfunc ∧ c' = { c with images := c'.images } ∧
  ((∃ ix ix', h = ⟨L, .maxpool c ix⟩ ∧ h' = ⟨L', .maxpool c' ix'⟩) ∨ (h = ⟨L, .meanpool c⟩ ∧ h' = ⟨L', .meanpool c'⟩))

theorem maxpool_images (junk : Nat → Nat → ℝ) (L L' : Layer) (c : Conv) (im : List (Mat ℝ)) (x : Mat ℝ) (ha : L'.actfunc = L.actfunc) :
    (∃ e, MaxPool.forwardprop junk L c x = .error e ∧ MaxPool.forwardprop junk L' { c with images := im } x = .error e) ∨
    ∃ r a im' ix, MaxPool.forwardprop junk L c x = .ok (r, { L with a := a }, { c with images := im' }, ix) ∧
      MaxPool.forwardprop junk L' { c with images := im } x = .ok (r, { L' with a := a }, { c with images := im' }, ix) := by
  have e1 : ∀ (L : Layer) (c : Conv), MaxPool.forwardprop junk L c x = ((do
      let indexes ← Mat.mk' junk x.nr (c.outputsize * 2)
      Conv.channelLoops junk c x indexes (fun i _ _ image indexes => do
        let (o, index) ← MaxPool.maxpool c.spatial c.stride image
        let indexes ← indexes.updSubmat (fun _ v => v) i 0 i (c.outputsize * 2 - 1) index
        .ok (o, indexes))) >>= fun t => .ok (funcop t.1 L.actfunc.act, { L with a := t.1 }, { c with images := t.2.1 }, t.2.2)) := by
    intro L c
    unfold MaxPool.forwardprop
    rw [bind_assoc]
  rw [e1 L c, e1 L' { c with images := im }]
  generalize ht : (do
      let indexes ← Mat.mk' junk x.nr (c.outputsize * 2)
      Conv.channelLoops junk c x indexes (fun i _ _ image indexes => do
        let (o, index) ← MaxPool.maxpool c.spatial c.stride image
        let indexes ← indexes.updSubmat (fun _ v => v) i 0 i (c.outputsize * 2 - 1) index
        .ok (o, indexes)) : Res (Mat ℝ × List (Mat ℝ) × Mat ℝ)) = t
  have ht' : (do
      let indexes ← Mat.mk' junk x.nr (({ c with images := im } : Conv).outputsize * 2)
      Conv.channelLoops junk { c with images := im } x indexes (fun i _ _ image indexes => do
        let (o, index) ← MaxPool.maxpool ({ c with images := im } : Conv).spatial ({ c with images := im } : Conv).stride image
        let indexes ← indexes.updSubmat (fun _ v => v) i 0 i (({ c with images := im } : Conv).outputsize * 2 - 1) index
        .ok (o, indexes)) : Res (Mat ℝ × List (Mat ℝ) × Mat ℝ)) = t := ht
  rw [ht']
  cases t with
  | error e => exact Or.inl ⟨e, rfl, rfl⟩
  | ok t => exact Or.inr ⟨_, t.1, t.2.1, t.2.2, rfl, by rw [ok_bind, ha]⟩

theorem meanpool_images (junk : Nat → Nat → ℝ) (L L' : Layer) (c : Conv) (im : List (Mat ℝ)) (x : Mat ℝ) (ha : L'.actfunc = L.actfunc) :
    (∃ e, MeanPool.forwardprop junk L c x = .error e ∧ MeanPool.forwardprop junk L' { c with images := im } x = .error e) ∨
    ∃ r a im', MeanPool.forwardprop junk L c x = .ok (r, { L with a := a }, { c with images := im' }) ∧
      MeanPool.forwardprop junk L' { c with images := im } x = .ok (r, { L' with a := a }, { c with images := im' }) := by
  have e1 : ∀ (L : Layer) (c : Conv), MeanPool.forwardprop junk L c x = (Conv.channelLoops junk c x () (fun _ _ _ image _ => do
        let o ← MeanPool.meanpool c.spatial c.stride image
        .ok (o, ())) >>= fun t => .ok (funcop t.1 L.actfunc.act, { L with a := t.1 }, { c with images := t.2.1 })) := fun _ _ => rfl
  rw [e1 L c, e1 L' { c with images := im }]
  generalize ht : Conv.channelLoops junk c x () (fun _ _ _ image _ => do
        let o ← MeanPool.meanpool c.spatial c.stride image
        .ok (o, ())) = t
  have ht' : Conv.channelLoops junk { c with images := im } x () (fun _ _ _ image _ => do
        let o ← MeanPool.meanpool ({ c with images := im } : Conv).spatial ({ c with images := im } : Conv).stride image
        .ok (o, ())) = t := ht
  rw [ht']
  cases t with
  | error e => exact Or.inl ⟨e, rfl, rfl⟩
  | ok t => exact Or.inr ⟨_, t.1, t.2.1, rfl, by rw [ok_bind, ha]⟩

theorem pool_steps (dist : Draws) (junk : Nat → Nat → ℝ) (h h' : HLayer) (hr : SamePool h h') (c : Spec.LayerCall) : Step SamePool (c.run dist junk h) (c.run dist junk h') := by
  obtain ⟨L, L', cv, cv', ha, hc, ⟨ix, ix', rfl, rfl⟩ | ⟨rfl, rfl⟩⟩ := hr
  · cases c with
    | forwardprop x =>
      show Step _ (((MaxPool.forwardprop junk L cv x >>= fun t => .ok (t.1, ⟨t.2.1, .maxpool t.2.2.1 t.2.2.2⟩)) : Res (Mat ℝ × HLayer)) >>= fun q => .ok (some q.1, q.2))
        (((MaxPool.forwardprop junk L' cv' x >>= fun t => .ok (t.1, ⟨t.2.1, .maxpool t.2.2.1 t.2.2.2⟩)) : Res (Mat ℝ × HLayer)) >>= fun q => .ok (some q.1, q.2))
      rw [hc]
      rcases maxpool_images junk L L' cv cv'.images x ha with ⟨e, h1, h2⟩ | ⟨r, a, im', ix2, h1, h2⟩
      · rw [h1, h2]; exact Or.inl ⟨e, rfl, rfl⟩
      · rw [h1, h2]; exact Or.inr ⟨_, _, _, rfl, rfl, _, _, _, _, by exact ha, rfl, Or.inl ⟨_, _, rfl, rfl⟩⟩
    | backprop d => exact Or.inr ⟨_, _, _, rfl, rfl, L, L', cv, cv', ha, hc, Or.inl ⟨_, _, rfl, rfl⟩⟩
    | update => exact Or.inr ⟨_, _, _, rfl, rfl, L, L', cv, cv', ha, hc, Or.inl ⟨_, _, rfl, rfl⟩⟩
    | updateWith g => exact Or.inr ⟨_, _, _, rfl, rfl, L, L', cv, cv', ha, hc, Or.inl ⟨_, _, rfl, rfl⟩⟩
    | randominit s =>
      show Step _ (((L.randominit dist s >>= fun L => .ok ⟨L, .maxpool cv ix⟩) : Res HLayer) >>= fun q => .ok (none, q)) (((L'.randominit dist s >>= fun L => .ok ⟨L, .maxpool cv' ix'⟩) : Res HLayer) >>= fun q => .ok (none, q))
      rw [randominit_ok, randominit_ok]
      exact Or.inr ⟨_, _, _, rfl, rfl, _, _, cv, cv', by exact ha, hc, Or.inl ⟨_, _, rfl, rfl⟩⟩
    | setlrate r => exact Or.inr ⟨_, _, _, rfl, rfl, L.setlrate r, L'.setlrate r, cv, cv', ha, hc, Or.inl ⟨_, _, rfl, rfl⟩⟩
  · cases c with
    | forwardprop x =>
      show Step _ (((MeanPool.forwardprop junk L cv x >>= fun t => .ok (t.1, ⟨t.2.1, .meanpool t.2.2⟩)) : Res (Mat ℝ × HLayer)) >>= fun q => .ok (some q.1, q.2))
        (((MeanPool.forwardprop junk L' cv' x >>= fun t => .ok (t.1, ⟨t.2.1, .meanpool t.2.2⟩)) : Res (Mat ℝ × HLayer)) >>= fun q => .ok (some q.1, q.2))
      rw [hc]
      rcases meanpool_images junk L L' cv cv'.images x ha with ⟨e, h1, h2⟩ | ⟨r, a, im', h1, h2⟩
      · rw [h1, h2]; exact Or.inl ⟨e, rfl, rfl⟩
      · rw [h1, h2]; exact Or.inr ⟨_, _, _, rfl, rfl, _, _, _, _, by exact ha, rfl, Or.inr ⟨rfl, rfl⟩⟩
    | backprop d => exact Or.inr ⟨_, _, _, rfl, rfl, L, L', cv, cv', ha, hc, Or.inr ⟨rfl, rfl⟩⟩
    | update => exact Or.inr ⟨_, _, _, rfl, rfl, L, L', cv, cv', ha, hc, Or.inr ⟨rfl, rfl⟩⟩
    | updateWith g => exact Or.inr ⟨_, _, _, rfl, rfl, L, L', cv, cv', ha, hc, Or.inr ⟨rfl, rfl⟩⟩
    | randominit s =>
      show Step _ (((L.randominit dist s >>= fun L => .ok ⟨L, .meanpool cv⟩) : Res HLayer) >>= fun q => .ok (none, q)) (((L'.randominit dist s >>= fun L => .ok ⟨L, .meanpool cv'⟩) : Res HLayer) >>= fun q => .ok (none, q))
      rw [randominit_ok, randominit_ok]
      exact Or.inr ⟨_, _, _, rfl, rfl, _, _, cv, cv', by exact ha, hc, Or.inr ⟨rfl, rfl⟩⟩
    | setlrate r => exact Or.inr ⟨_, _, _, rfl, rfl, L.setlrate r, L'.setlrate r, cv, cv', ha, hc, Or.inr ⟨rfl, rfl⟩⟩

theorem assign_geo {c d : Conv} {h w nf sp : Nat} (G : c.Geo h w nf nf sp sp 0) (H : d.Geo h w nf nf sp sp 0) : Conv.assign c d = { d with images := (Conv.assign c d).images } := by
  have a1 := G.es.trans H.es.symm
  have a2 := G.eoh.trans H.eoh.symm
  have a3 := G.eow.trans H.eow.symm
  have a4 := G.eos.trans H.eos.symm
  have a5 := H.esp.trans H.est.symm
  cases c; cases d
  simp only at a1 a2 a3 a4 a5
  simp [Conv.assign, a1, a2, a3, a4, a5]

/-- **C96** (pooling layers, assignment, what holds). When two pooling layers of the same class were made for the same image size and number of filters, with windows of the same size and a stride equal to the window
size, and have the same activation function (all pooling layers have the identity), then one assigned from the other answers every sequence of calls like the other. -/
theorem C96_pool_assign_partial (dist : Draws) (junk : Nat → Nat → ℝ) {L S : Layer} {c s : Conv} {h w nf sp : Nat} (hs : s.Geo h w nf nf sp sp 0) (hc : c.Geo h w nf nf sp sp 0) (ha : S.actfunc = L.actfunc)
    (ix sx : Mat ℝ) :
    (∃ g, HLayer.assign ⟨S, .maxpool s sx⟩ ⟨L, .maxpool c ix⟩ = some g ∧ Spec.Alike dist junk ⟨L, .maxpool c ix⟩ g) ∧
    ∃ g, HLayer.assign ⟨S, .meanpool s⟩ ⟨L, .meanpool c⟩ = some g ∧ Spec.Alike dist junk ⟨L, .meanpool c⟩ g :=
  ⟨⟨_, rfl, alike_of dist junk (pool_steps dist junk) ⟨L, S, c, _, ha, assign_geo hs hc, Or.inl ⟨_, _, rfl, rfl⟩⟩⟩,
    ⟨_, rfl, alike_of dist junk (pool_steps dist junk) ⟨L, S, c, _, ha, assign_geo hs hc, Or.inr ⟨rfl, rfl⟩⟩⟩⟩

/-- The full property is false of pooling layers: the sizes of the output of a copy-constructed layer are whatever its memory contained; there are contents with which the copy throws on *every* input that the original
accepts. -/
theorem C96_pool_copy_refuted (dist : Draws) (junk : Nat → Nat → ℝ) {L : Layer} {c : Conv} {h w nf sp st : Nat} (G : c.Geo h w nf nf sp st 0) (ix : Mat ℝ) : ∃ (mem : LayerMem) (g g2 : HLayer),
    HLayer.copyCtor dist junk mem ⟨L, .maxpool c ix⟩ = .ok g ∧ (∀ x, g.forwardprop junk x = .error .throw) ∧
    HLayer.copyCtor dist junk mem ⟨L, .meanpool c⟩ = .ok g2 ∧ (∀ x, g2.forwardprop junk x = .error .throw) ∧
    ∀ x : Mat ℝ, 0 < x.nr → nf * (w * h) ≤ x.nc → (∃ r, (HLayer.mk L (.maxpool c ix)).forwardprop junk x = .ok r) ∧ ∃ r, (HLayer.mk L (.meanpool c)).forwardprop junk x = .ok r := by
  let mem : LayerMem := ⟨0, ⟨0, 0, 0, 0, 0, -1, 0, 0, 0, 0, 0, []⟩⟩
  obtain ⟨L', c', e, -, -, -, -, hc', -⟩ := C50_copy_weights dist junk mem.conv (L := L) G
  have hnf : 0 < nf := G.hpn
  refine ⟨mem, ⟨L', .maxpool c' ix⟩, ⟨L', .meanpool c'⟩, ?_, fun x => ?_, ?_, fun x => ?_, fun x hx hxc => ⟨?_, ?_⟩⟩
  · unfold HLayer.copyCtor
    simp only [e, ok_bind]
  · have : Mat.mk' junk x.nr (c'.outputsize * 2) = .error .throw := by
      rw [hc']
      exact if_neg (by show ¬ (_ ∧ (0 : Int) ≤ -1 * 2); omega)
    unfold HLayer.forwardprop MaxPool.forwardprop
    simp only [this, error_bind]
  · unfold HLayer.copyCtor
    simp only [e, ok_bind]
  · have : Mat.mk' (fun _ _ => (0 : ℝ)) x.nr (c'.outputsize * c'.nfilter) = .error .throw := by
      rw [hc']
      refine if_neg ?_
      show ¬ (_ ∧ (0 : Int) ≤ -1 * c.nfilter)
      rw [G.enf]
      omega
    unfold HLayer.forwardprop MeanPool.forwardprop Conv.channelLoops
    simp only [this, error_bind]
  · obtain ⟨y, L1, c1, i1, q, -⟩ := C48_maxpool (L := L) junk G hx hxc
    exact ⟨_, by unfold HLayer.forwardprop; simp only [q, ok_bind]; rfl⟩
  · obtain ⟨y, L1, c1, q, -⟩ := C48_meanpool (L := L) junk G hx hxc
    exact ⟨_, by unfold HLayer.forwardprop; simp only [q, ok_bind]; rfl⟩

/-- The full statement is false for convolution layers: after an assignment between two layers of the same geometry (here 1 x 1 pictures, one kernel of one weight, 1 and 0), the target still computes with its
own weights. -/
theorem C96_conv_assign_refuted (junk : Nat → Nat → ℝ) : ∃ (S L : Layer) (s c : Conv) (g g1 g2 : HLayer) (x r1 r2 : Mat ℝ), s.Geo 1 1 1 1 1 1 0 ∧ c.Geo 1 1 1 1 1 1 0 ∧ S.actfunc = L.actfunc ∧
    HLayer.assign ⟨S, .conv s⟩ ⟨L, .conv c⟩ = some g ∧ g.base.W = S.W ∧ g.base.W ≠ L.W ∧
    (HLayer.mk L (.conv c)).forwardprop junk x = .ok (r1, g1) ∧ g.forwardprop junk x = .ok (r2, g2) ∧ r1 ≠ r2 := by
  obtain ⟨L, c, h1, h2, h3, h4, h5⟩ := C47_constructor (fun _ _ => 0) junk (h := 1) (w := 1) (pn := 1) (nf := 1) (sp := 1) (st := 1) (pd := 0) 0
    Act.identity (by norm_num) (by norm_num) (by norm_num) (by norm_num) (by norm_num) (by norm_num) (by norm_num) (by norm_num) (by norm_num) (by norm_num)
  have hact : L.actfunc.act = id := by rw [h5]; rfl
  have run : ∀ v : ℝ, ∃ y L' c', Conv.forwardprop junk { L with W := Mat.of 1 1 (fun _ _ => v) } c (Mat.of 1 1 (fun _ _ => 1)) = .ok (y, L', c') ∧ y.f 0 0 = v := by
    intro v
    obtain ⟨y, L', c', p1, p2, p3, p4⟩ := C47_forward_partial junk (L := { L with W := Mat.of 1 1 (fun _ _ => v) }) h2 (x := Mat.of 1 1 (fun _ _ => 1)) rfl (by simp) rfl rfl
    refine ⟨y, L', c', p1, ?_⟩
    have := p4 0 0 0 (by norm_num) (by unfold Spec.outLen; norm_num) (by unfold Spec.outLen; norm_num)
    rw [Nat.zero_mul, Nat.zero_mul] at this
    rw [show y.f 0 0 = _ from this]
    show L.actfunc.act _ = v
    rw [hact]
    simp [Spec.conv, Spec.pixel, Mat.of_f]
  obtain ⟨y1, L1, c1, e1, f1⟩ := run 0
  obtain ⟨y2, L2, c2, e2, f2⟩ := run 1
  have hc : Conv.assign c c = c := by
    unfold Conv.assign
    have a1 := h2.est
    have a2 := h2.esp
    cases c
    simp_all
  refine ⟨{ L with W := Mat.of 1 1 (fun _ _ => 1) }, { L with W := Mat.of 1 1 (fun _ _ => 0) }, c, c, _, ⟨L1, .conv c1⟩, ⟨L2, .conv c2⟩, Mat.of 1 1 (fun _ _ => 1), y1, y2, h2, h2, rfl, rfl, rfl, ?_, ?_, ?_, ?_⟩
  · intro hh
    have e := congrArg (fun m => Mat.f m 0 0) hh
    simp [Mat.of_f] at e
  · unfold HLayer.forwardprop
    simp only [e1, ok_bind]
  · unfold HLayer.forwardprop
    simp only [hc, e2, ok_bind]
  · intro hh
    rw [hh, f2] at f1
    norm_num at f1

/-- Two pooling layers made for 4 x 4 images, 3 filters and windows of size 2 with stride 2, from different random numbers, meet the hypotheses of `C96_pool_assign_partial`. -/
example (dist dist' : Draws) (junk junk' : Nat → Nat → ℝ) : ∃ (L S : Layer) (c s : Conv), MaxPool.new dist junk 4 4 3 2 2 = .ok (L, c) ∧ MaxPool.new dist' junk' 4 4 3 2 2 = .ok (S, s) ∧
    ∃ g, HLayer.assign ⟨S, .maxpool s .empty⟩ ⟨L, .maxpool c .empty⟩ = some g ∧ Spec.Alike dist junk ⟨L, .maxpool c .empty⟩ g := by
  obtain ⟨L, c, h1, h2, h3, h4, h5⟩ := C47_constructor dist junk (h := 4) (w := 4) (pn := 3) (nf := 3) (sp := 2) (st := 2) (pd := 0) 0
    Act.identity (by norm_num) (by norm_num) (by norm_num) (by norm_num) (by norm_num) (by norm_num) (by norm_num) (by norm_num) (by norm_num) (by norm_num)
  obtain ⟨S, s, k1, k2, k3, k4, k5⟩ := C47_constructor dist' junk' (h := 4) (w := 4) (pn := 3) (nf := 3) (sp := 2) (st := 2) (pd := 0) 0
    Act.identity (by norm_num) (by norm_num) (by norm_num) (by norm_num) (by norm_num) (by norm_num) (by norm_num) (by norm_num) (by norm_num) (by norm_num)
  exact ⟨L, S, c, s, h1, k1, (C96_pool_assign_partial dist junk k2 h2 (k5.trans h5.symm) _ _).1⟩

/-- A softmax layer and a session of two calls. -/
example (dist : Draws) (junk : Nat → Nat → ℝ) (mem : LayerMem) : ∃ h', HLayer.copyCtor dist junk mem ⟨Layer.default, .softmax .empty⟩ = .ok h' ∧
    Spec.answers dist junk h' [.forwardprop (Mat.of 2 3 (fun i j => (i : ℝ) + j)), .backprop (Mat.of 2 3 (fun i j => (i : ℝ) + j))] = Spec.answers dist junk ⟨Layer.default, .softmax .empty⟩ [.forwardprop (Mat.of 2 3 (fun i j => (i : ℝ) + j)), .backprop (Mat.of 2 3 (fun i j => (i : ℝ) + j))] := by
  obtain ⟨⟨h', e, _, ha⟩, -⟩ := C96_dense_softmax dist junk mem ⟨Layer.default, .softmax .empty⟩ (Or.inr ⟨_, rfl⟩)
  exact ⟨h', e, ha _⟩

end
end Nnet.NN
