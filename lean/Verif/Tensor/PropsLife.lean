import Verif.Tensor.LifeLemmas
/-!
# C04 - C11: construction, copying, moving, destruction and reshaping of tensors
-/
namespace Nnet.Tensor
variable {R : Type}

/-! ## Concrete tensors used to show that hypotheses are satisfiable -/

/-- A heap with a 2 x 2 tensor of elements 1,2,3,4, a 3-element tensor 5,6,7, a 2-element tensor 8,9 and a scalar tensor 10. -/
def exHeap : Heap Int := ⟨[⟨[some 1, some 2, some 3, some 4], true, true⟩, ⟨[some 5, some 6, some 7], true, true⟩,
  ⟨[some 8, some 9], true, true⟩, ⟨[some 10], false, true⟩]⟩
def exA : Tensor := ⟨⟨[2, 2], [4, 2]⟩, some 0⟩
def exB : Tensor := ⟨⟨[3], [3]⟩, some 1⟩
def exC : Tensor := ⟨⟨[2], [2]⟩, some 2⟩
def exS : Tensor := ⟨⟨[0], [1]⟩, some 3⟩
theorem exA_holds : HoldsAt exHeap exA 0 [2, 2] [1, 2, 3, 4] := ⟨by decide, by decide, rfl, true, rfl⟩
theorem exB_holds : HoldsAt exHeap exB 1 [3] [5, 6, 7] := ⟨by decide, by decide, rfl, true, rfl⟩
theorem exC_holds : HoldsAt exHeap exC 2 [2] [8, 9] := ⟨by decide, by decide, rfl, true, rfl⟩
theorem exS_holds : HoldsAt exHeap exS 3 [0] [10] := ⟨by decide, by decide, rfl, false, rfl⟩

/-! ## C04 -/

/-- **C04**, `Zeros` and the shape constructors: all elements 0, one new buffer, old heap untouched. -/
theorem C04_zeros [Zero R] (h : Heap R) (dims : List Int) (s : TensorShape) (hs : mkShape dims = .ok s) :
    ∃ t h', Tensor.zeros h s = .ok (t, h') ∧ Tensor.zerosDims h dims = .ok (t, h') ∧
      Tensor.ofShape h s = .ok (t, h') ∧ Tensor.ofDims h dims = .ok (t, h') ∧
      Fresh h h' t dims (List.replicate (numel dims) 0) := by
  have := ofShape_ok h hs
  refine ⟨_, _, this, by simp [Tensor.zerosDims, Tensor.zeros, hs, this], this, by simp [Tensor.ofDims, hs, this], hs, by simp, rfl, ?_⟩
  simp [withZeros]

/-- **C04**, `Ones`. -/
theorem C04_ones [Zero R] [One R] (h : Heap R) (dims : List Int) (s : TensorShape) (hs : mkShape dims = .ok s) :
    ∃ t h', Tensor.ones h s = .ok (t, h') ∧ Tensor.onesDims h dims = .ok (t, h') ∧
      Fresh h h' t dims (List.replicate (numel dims) 1) := by
  have key : Tensor.ones h s = .ok (⟨s, some h.blocks.length⟩, ⟨h.blocks ++ [⟨((List.range (numel dims)).map (fun _ => (1 : R))).map some, true, true⟩]⟩) := by
    unfold Tensor.ones
    simp only [ofShape_ok h hs, ok_bind, mkShape_chunk0 hs, Int.toNat_natCast, fill_fresh, pure_eq_ok]
  refine ⟨_, _, key, by simp [Tensor.onesDims, hs, key], hs, by simp, rfl, ?_⟩
  simp

/-- **C04**, `Gaussian`: element `i` is the `i`-th draw of the generator. -/
theorem C04_gaussian [Zero R] (h : Heap R) (dims : List Int) (s : TensorShape) (hs : mkShape dims = .ok s) (draws : Nat → R) :
    ∃ t h', Tensor.gaussian h s draws = .ok (t, h') ∧ Tensor.gaussianDims h dims draws = .ok (t, h') ∧
      Fresh h h' t dims ((List.range (numel dims)).map draws) := by
  have key : Tensor.gaussian h s draws = .ok (⟨s, some h.blocks.length⟩, ⟨h.blocks ++ [⟨((List.range (numel dims)).map draws).map some, true, true⟩]⟩) := by
    unfold Tensor.gaussian
    simp only [ofShape_ok h hs, ok_bind, Tensor.chunkAt, mkShape_chunk0 hs, Int.toNat_natCast, fill_fresh, pure_eq_ok]
  exact ⟨_, _, key, by simp [Tensor.gaussianDims, hs, key], hs, by simp, rfl, rfl⟩

/-- **C04**, rejected dimension lists: the vector versions fail exactly like `TensorShape` (C02). -/
theorem C04_rejects [Zero R] [One R] (h : Heap R) (dims : List Int) (e : Stop) (hs : mkShape dims = .error e) (draws : Nat → R) :
    Tensor.zerosDims h dims = .error e ∧ Tensor.ofDims h dims = .error e ∧ Tensor.onesDims h dims = .error e ∧
      Tensor.gaussianDims h dims draws = .error e := by
  simp [Tensor.zerosDims, Tensor.ofDims, Tensor.onesDims, Tensor.gaussianDims, hs]

/-- **C04**, no other tensor is disturbed (`Fresh` says so; this spells it out for any tensor with any value). -/
theorem C04_others_undisturbed (h h' : Heap R) (t u : Tensor) (dims d' : List Int) (vals w : List R)
    (H : Fresh h h' t dims vals) (K : Holds h u d' w) : Holds h' u d' w ∧ u.data ≠ t.data := by
  refine ⟨H.keeps K, ?_⟩
  obtain ⟨p, hp, hlt⟩ := K.ptr
  rw [hp, H.2.2.1]
  intro hc; cases hc; omega

example : ∃ s, mkShape [2, 3] = .ok s ∧ numel [2, 3] = 6 := ⟨⟨[2, 3], [6, 3]⟩, by decide, by decide⟩
example : ∃ t h', Tensor.gaussianDims exHeap [2, 1] (fun i => (i : Int) + 40) = .ok (t, h') ∧ t.get h' 1 = .ok 41 ∧
    exA.get h' 3 = .ok 4 :=
  ⟨⟨⟨[2, 1], [2, 1]⟩, some 4⟩, ⟨exHeap.blocks ++ [⟨[some 40, some 41], true, true⟩]⟩, by decide, by decide, by decide⟩

/-! ## C05 -/

/-- **C05**, for every `n > 0` with `n*n` representable: shape `{n,n}`, element `(i,j)` is 1 if `i = j`, else 0. -/
theorem C05_eyes [Zero R] [One R] (h : Heap R) (n : Nat) (hn : 0 < n) (hint : ((n * n : Nat) : Int) ≤ intMax) :
    ∃ t h' vals, Tensor.eyes h (n : Int) = .ok (t, h') ∧ Fresh h h' t [(n : Int), (n : Int)] vals ∧
      ∀ i j, i < n → j < n → vals[i * n + j]? = some (if i = j then 1 else 0) := by
  obtain ⟨t, h', h1, h2⟩ := eyes_ok h n hn hint
  refine ⟨t, h', eyeVals n, h1, h2, fun i j hi hj => ?_⟩
  have hlt : i * n + j < n * n := by nlinarith
  have e1 : (i * n + j) / n = i := by
    rw [Nat.mul_comm, Nat.mul_add_div hn, Nat.div_eq_of_lt hj]; omega
  have e2 : (i * n + j) % n = j := by rw [Nat.mul_comm, Nat.mul_add_mod, Nat.mod_eq_of_lt hj]
  simp [eyeVals, hlt, e1, e2]

/-- **C05**, `n <= 0` aborts. -/
theorem C05_eyes_abort [Zero R] [One R] (h : Heap R) (n : Int) (hn : n ≤ 0) : Tensor.eyes h n = .error .abort := by
  have : mkShape [n, n] = .error .abort := by
    apply mkShape_abort
    rintro ⟨d, ds, he, -, h1⟩
    cases he
    have := h1 n (by simp)
    omega
  simp [Tensor.eyes, this]

/-- **C05**, if `n*n` is not representable the computation is undefined (signed overflow); no wrong tensor is built. -/
theorem C05_eyes_overflow [Zero R] [One R] (h : Heap R) (n : Int) (hn : 0 < n) (hi : IsInt n) (hov : intMax < n * n) :
    Tensor.eyes h n = .error (.ub .signedOverflow) := by
  have : mkShape [n, n] = .error (.ub .signedOverflow) := by
    apply mkShape_overflow ⟨n, [n], rfl, hn.le, by simpa using hn⟩ (by simpa using hi)
    intro hf
    have := hf 0
    simp at this; omega
  simp [Tensor.eyes, this]

example : ∃ t h', Tensor.eyes exHeap 3 = .ok (t, h') ∧ t.get h' 4 = .ok 1 ∧ t.get h' 5 = .ok 0 := by
  obtain ⟨t, h', vals, h1, h2, h3⟩ := C05_eyes exHeap 3 (by omega) (by decide)
  exact ⟨t, h', h1, h2.holds.read (h3 1 1 (by omega) (by omega)), h2.holds.read (h3 1 2 (by omega) (by omega))⟩

/-! ## C06 -/

/-- **C06**, copy construction: same dimensions and elements, own buffer, source and everything else untouched. -/
theorem C06_deep_copy [Zero R] (h : Heap R) (src : Tensor) (dims : List Int) (v : List R) (H : Holds h src dims v) :
    ∃ t h', Tensor.copyCtor h src = .ok (t, h') ∧ Fresh h h' t dims v ∧ Holds h' src dims v ∧ t.data ≠ src.data := by
  have hc := copyCtor_ok H
  have hF : Fresh h ⟨h.blocks ++ [⟨v.map some, true, true⟩]⟩ ⟨src.shape, some h.blocks.length⟩ dims v :=
    ⟨H.mk, H.len, rfl, rfl⟩
  exact ⟨_, _, hc, hF, hF.keeps H, (C04_others_undisturbed _ _ _ _ _ _ _ _ hF H).2.symm⟩

/-- **C06**, independence: a write through a tensor changes no element of any tensor with another buffer. -/
theorem C06_writes_independent (h h' : Heap R) (t u : Tensor) (i : Int) (x : R) (dims : List Int) (v : List R)
    (hne : t.data ≠ u.data) (H : Holds h u dims v) (hw : t.set h i x = .ok h') : Holds h' u dims v := by
  unfold Tensor.set Heap.write at hw
  cases ha : h.access t.data i with
  | error e => simp [ha] at hw
  | ok a =>
    obtain ⟨q, k⟩ := a
    simp [ha] at hw
    obtain ⟨p, h1, h2, h3, arr, h4⟩ := H
    obtain ⟨h5, -⟩ := access_some ha
    refine ⟨p, h1, h2, h3, arr, ?_⟩
    have hqp : q ≠ p := by rintro rfl; exact hne (h5.trans h3.symm)
    rw [← hw, Heap.poke]
    simp [hqp, h4]

/-- **C06**, copying a data-less tensor (default constructed or moved from) is undefined behaviour. -/
theorem C06_dataless_undefined [Zero R] (h : Heap R) (t : Tensor) (dims : List Int) (hs : mkShape dims = .ok t.shape)
    (hd : t.data = none) : Tensor.copyCtor h t = .error (.ub .nullDeref) := by
  obtain ⟨s, d⟩ := t
  simp only at hd hs; subst hd
  exact copyCtor_null h hs

example : Holds exHeap exA [2, 2] [1, 2, 3, 4] := ⟨0, exA_holds⟩
example : ∃ t h', Tensor.copyCtor exHeap exA = .ok (t, h') ∧ ∃ h'', t.set h' 0 (77 : Int) = .ok h'' ∧ exA.get h'' 0 = .ok 1 :=
  ⟨⟨⟨[2, 2], [4, 2]⟩, some 4⟩, ⟨exHeap.blocks ++ [⟨[some 1, some 2, some 3, some 4], true, true⟩]⟩, by decide,
   ⟨exHeap.blocks ++ [⟨[some 77, some 2, some 3, some 4], true, true⟩]⟩, by decide, by decide⟩
example : ∃ t, Tensor.mkDefault = .ok t ∧ t.data = none ∧ mkShape [0] = .ok t.shape := ⟨⟨⟨[0], [1]⟩, none⟩, by decide, rfl, by decide⟩

/-! ## C07 -/

/-- **C07 (partial)**: when target and source have the same number of elements, copy assignment gives the target the source's
shape and elements in the target's own buffer and changes nothing else. Missing: targets of another size, see below. -/
theorem C07_copy_assign_partial [Zero R] (h : Heap R) (dst src : Tensor) (p q : Nat) (d1 d2 : List Int) (v1 v2 : List R)
    (H1 : HoldsAt h dst p d1 v1) (H2 : HoldsAt h src q d2 v2) (hpq : p ≠ q) (hn : numel d1 = numel d2) :
    ∃ t h', Tensor.copyAssign h dst src = .ok (t, h') ∧ HoldsAt h' t p d2 v2 ∧ HoldsAt h' src q d2 v2 ∧
      (h'.blocks.length = h.blocks.length ∧ ∀ r, r ≠ p → h'.blocks[r]? = h.blocks[r]?) ∧
      (h'.blocks[p]?).map Block.isArray = (h.blocks[p]?).map Block.isArray := by
  obtain ⟨h1, h2, h3, arr, h4⟩ := H1
  have hplt : p < h.blocks.length := by rw [List.getElem?_eq_some_iff] at h4; exact h4.1
  refine ⟨_, _, copyAssign_same h1 h3 h2 h4 H2 hpq hn, ?_, ?_, ?_, ?_⟩
  · exact ⟨H2.1, H2.2.1, rfl, arr, by simp [hplt]⟩
  · obtain ⟨g1, g2, g3, arr', g4⟩ := H2
    exact ⟨g1, g2, g3, arr', by simp [hpq, g4]⟩
  · exact ⟨by simp, fun r hr => by simp [Ne.symm hr]⟩
  · rw [h4]; simp [hplt]

/-- **C07**, assigning a tensor to itself changes nothing. -/
theorem C07_self_assign [Zero R] (h : Heap R) (t : Tensor) (p : Nat) (dims : List Int) (v : List R) (H : HoldsAt h t p dims v) :
    Tensor.selfAssign h t = .ok (t, h) := selfAssign_ok H

/-- **C07**, assigning a data-less tensor (default constructed or moved from) to itself is defined and gives it a fresh buffer
of zeros; its dimensions stay. -/
theorem C07_self_assign_dataless [Zero R] (h : Heap R) (t : Tensor) (dims : List Int) (hs : mkShape dims = .ok t.shape)
    (hd : t.data = none) :
    ∃ t' h', Tensor.selfAssign h t = .ok (t', h') ∧ t'.shape = t.shape ∧ Fresh h h' t' dims (List.replicate (numel dims) 0) :=
  ⟨_, _, selfAssign_null hs hd, rfl, hs, by simp, rfl, rfl⟩

example : ∃ t t' h', Tensor.mkDefault = .ok t ∧ Tensor.selfAssign exHeap t = .ok (t', h') ∧ t'.get h' 0 = .ok 0 :=
  ⟨⟨⟨[0], [1]⟩, none⟩, ⟨⟨[0], [1]⟩, some 4⟩, ⟨exHeap.blocks ++ [⟨[some 0], true, true⟩]⟩, by decide, by decide, by decide⟩

/-- **C07 fails when the source is larger**: for *every* such pair of array tensors the target ends up with the source's shape,
but every element from the target's old element count on is indeterminate: reading it is undefined. -/
theorem C07_grow_indeterminate [Zero R] (h : Heap R) (dst src : Tensor) (p q : Nat) (d1 d2 : List Int) (v1 v2 : List R)
    (hd : mkShape d1 = .ok dst.shape) (hdp : dst.data = some p) (hb : h.blocks[p]? = some ⟨v1.map some, true, true⟩)
    (H2 : HoldsAt h src q d2 v2) (hpq : p ≠ q) (hn : numel d1 < numel d2) :
    ∃ t h', Tensor.copyAssign h dst src = .ok (t, h') ∧ t.shape = src.shape ∧
      (∀ i : Nat, i < numel d1 → t.get h' i = src.get h i) ∧
      (∀ i : Nat, numel d1 ≤ i → i < numel d2 → t.get h' i = .error (.ub .uninitRead)) := by
  refine ⟨_, _, copyAssign_grow hd hdp hb H2 hpq hn, rfl, ?_, ?_⟩
  · intro i hi
    have hl2 := H2.2.1
    have hiv : i < v2.length := by omega
    have hs : src.get h i = .ok v2[i] := Holds.read_block H2 rfl i hiv
    rw [hs]
    refine read_mk (b := ⟨(v2.take (numel d1)).map some ++ List.replicate (numel d2 - numel d1) none, true, true⟩) ?_ rfl ?_
    · rw [List.getElem?_append_right (by simp)]; simp
    · rw [List.getElem?_append_left (by simp; omega)]
      simp [hi, hiv]
  · intro i hi1 hi2
    have hl2 := H2.2.1
    unfold Tensor.get Heap.read
    have hb : ((h.blocks.set p ⟨v1.map some, true, false⟩ ++
        [⟨(v2.take (numel d1)).map some ++ List.replicate (numel d2 - numel d1) none, true, true⟩]))[h.blocks.length]? =
        some ⟨(v2.take (numel d1)).map some ++ List.replicate (numel d2 - numel d1) none, true, true⟩ := by
      rw [List.getElem?_append_right (by simp)]; simp
    simp only
    rw [access_ok (h := ⟨_⟩) hb rfl (by simp; omega), ok_bind]
    have : (⟨h.blocks.set p ⟨v1.map some, true, false⟩ ++
        [⟨(v2.take (numel d1)).map some ++ List.replicate (numel d2 - numel d1) none, true, true⟩]⟩ : Heap R).cell h.blocks.length i = none := by
      unfold Heap.cell
      rw [hb]
      simp only
      rw [List.getElem?_append_right (by simp; omega), List.getElem?_replicate]
      split <;> rfl
    simp only [this]

/-- **C07 fails when the source is smaller**: copy assignment reads beyond the end of the source. -/
theorem C07_shrink_out_of_bounds [Zero R] (h : Heap R) (dst src : Tensor) (p q : Nat) (d1 d2 : List Int) (v1 v2 : List R)
    (H1 : HoldsAt h dst p d1 v1) (H2 : HoldsAt h src q d2 v2) (hpq : p ≠ q) (hn : numel d2 < numel d1) :
    Tensor.copyAssign h dst src = .error (.ub .outOfBounds) := by
  obtain ⟨h1, h2, h3, arr, h4⟩ := H1
  exact copyAssign_shrink h1 h3 h2 h4 H2 hpq hn

/-- **C07 fails for a data-less target** (in particular `Tensor a; a = b;`): the new buffer has the target's old element count,
so if `b` is larger every element from there on lies outside the buffer; if `b` is smaller the source is over-read. -/
theorem C07_null_target [Zero R] (h : Heap R) (dst src : Tensor) (q : Nat) (d1 d2 : List Int) (v2 : List R)
    (hd : mkShape d1 = .ok dst.shape) (hdp : dst.data = none) (H2 : HoldsAt h src q d2 v2) :
    (numel d1 = numel d2 → ∃ t h', Tensor.copyAssign h dst src = .ok (t, h') ∧ Fresh h h' t d2 v2) ∧
    (numel d1 < numel d2 → ∃ t h', Tensor.copyAssign h dst src = .ok (t, h') ∧ t.shape = src.shape ∧
      ∀ i : Nat, numel d1 ≤ i → t.get h' i = .error (.ub .outOfBounds)) ∧
    (numel d2 < numel d1 → Tensor.copyAssign h dst src = .error (.ub .outOfBounds)) := by
  refine ⟨fun hn => ?_, fun hn => ?_, fun hn => copyAssign_null_shrink hd hdp H2 hn⟩
  · refine ⟨_, _, copyAssign_null hd hdp H2 hn.le, H2.1, H2.2.1, rfl, ?_⟩
    have : v2.take (numel d1) = v2 := by rw [hn, ← H2.2.1, List.take_length]
    simp [this]
  · refine ⟨_, _, copyAssign_null hd hdp H2 hn.le, rfl, ?_⟩
    intro i hi
    unfold Tensor.get Heap.read Heap.access
    have hl2 := H2.2.1
    have : ¬ (i < numel d1 ∧ i < v2.length) := by omega
    simp [this]

/-- The general claim of C07: copy assignment always succeeds and the target then equals the source. -/
def CopyAssignCorrect : Prop :=
  ∀ (h : Heap Int) (dst src : Tensor) (p q : Nat) (d1 d2 : List Int) (v1 v2 : List Int),
    HoldsAt h dst p d1 v1 → HoldsAt h src q d2 v2 → p ≠ q →
    ∃ t h', Tensor.copyAssign h dst src = .ok (t, h') ∧ Holds h' t d2 v2

/-- **C07 is false in general.** -/
theorem C07_refuted : ¬ CopyAssignCorrect := by
  intro H
  obtain ⟨t, h', h1, -⟩ := H exHeap exA exB 0 1 _ _ _ _ exA_holds exB_holds (by decide)
  rw [C07_shrink_out_of_bounds exHeap exA exB 0 1 _ _ _ _ exA_holds exB_holds (by decide) (by decide)] at h1
  cases h1

example : HoldsAt exHeap exC 2 [2] [8, 9] ∧ HoldsAt exHeap exB 1 [3] [5, 6, 7] ∧ (2 : Nat) ≠ 1 ∧ numel [2] < numel [3] :=
  ⟨exC_holds, exB_holds, by decide, by decide⟩
example : ∃ h t, HoldsAt (R := Int) h exA 0 [2, 2] [1, 2, 3, 4] ∧ HoldsAt h t 1 [4] [5, 6, 7, 8] ∧ numel [2, 2] = numel [4] :=
  ⟨⟨[⟨[some 1, some 2, some 3, some 4], true, true⟩, ⟨[some 5, some 6, some 7, some 8], true, true⟩]⟩, ⟨⟨[4], [4]⟩, some 1⟩,
   ⟨by decide, by decide, rfl, true, rfl⟩, ⟨by decide, by decide, rfl, true, rfl⟩, by decide⟩

/-! ## C08 -/

/-- **C08.** Move construction gives an equal tensor in its own buffer and leaves the source a valid equal tensor. -/
theorem C08_move_ctor [Zero R] (h : Heap R) (src : Tensor) (dims : List Int) (v : List R) (H : Holds h src dims v) :
    ∃ t h', Tensor.moveCtor h src = .ok (t, h') ∧ Fresh h h' t dims v ∧ Holds h' src dims v ∧ t.data ≠ src.data := by
  obtain ⟨q, Hq⟩ := H
  obtain ⟨t, h', h1, h2⟩ := (C07_null_target h ⟨src.shape, none⟩ src q dims dims v Hq.1 rfl Hq).1 rfl
  refine ⟨t, h', ?_, h2, h2.keeps ⟨q, Hq⟩, (C04_others_undisturbed _ _ _ _ _ _ _ _ h2 ⟨q, Hq⟩).2.symm⟩
  unfold Tensor.moveCtor
  rw [copyShape_mk Hq.1, ok_bind, h1]

/-- **C08**, a data-less source is undefined behaviour, as for copying. -/
theorem C08_dataless_undefined [Zero R] (h : Heap R) (t : Tensor) (dims : List Int) (hs : mkShape dims = .ok t.shape)
    (hd : t.data = none) : Tensor.moveCtor h t = .error (.ub .nullDeref) := by
  unfold Tensor.moveCtor Tensor.copyAssign Tensor.assignBuffer
  simp only [copyShape_mk hs, ok_bind, Tensor.chunkAt, mkShape_chunk0 hs, Heap.alloc, pure_eq_ok, hd, Int.toNat_natCast]
  rw [copyLoop_null _ _ _ (numel_pos (mkShape_ok_imp hs).1)]; rfl

example : Holds exHeap exB [3] [5, 6, 7] := ⟨1, exB_holds⟩

/-! ## C09 -/

/-- A live block no tensor of the list owns. -/
def LeakedBlock (h : Heap R) (ts : List Tensor) (p : Nat) : Prop :=
  (∃ b, h.blocks[p]? = some b ∧ b.live = true) ∧ ∀ t ∈ ts, t.data ≠ some p

/-- **C09 (partial)**: the value part, for every target. After `a = std::move(b)`, `a` has exactly `b`'s former dimensions,
elements and buffer, `b` has no data; no element of any buffer changes (the heap is untouched). Missing: the release of the
target's previous buffer, see `C09_leaks`. -/
theorem C09_move_assign_partial (h : Heap R) (dst src : Tensor) (p : Nat) (dims : List Int) (v : List R)
    (H : HoldsAt h src p dims v) :
    ∃ a b, Tensor.moveAssign dst src = .ok (a, b) ∧ HoldsAt h a p dims v ∧ b.data = none ∧ b.shape = src.shape := by
  obtain ⟨h1, h2, h3, h4⟩ := H
  refine ⟨⟨src.shape, src.data⟩, ⟨src.shape, none⟩, ?_, ⟨h1, h2, h3, h4⟩, rfl, rfl⟩
  simp [Tensor.moveAssign, assignShape_mk h1]

/-- **C09**, a target without data: nothing is leaked (every buffer owned before is owned after). -/
theorem C09_no_leak_null_target (h : Heap R) (dst src a b : Tensor) (others : List Tensor) (hd : dst.data = none)
    (hm : Tensor.moveAssign dst src = .ok (a, b)) (q : Nat) (hl : LeakedBlock h (a :: b :: others) q) :
    LeakedBlock h (dst :: src :: others) q := by
  unfold Tensor.moveAssign at hm
  cases hs : assignShape dst.shape src.shape with
  | error e => simp [hs] at hm
  | ok s =>
    simp [hs] at hm
    obtain ⟨rfl, rfl⟩ := hm
    refine ⟨hl.1, fun t ht => ?_⟩
    rcases List.mem_cons.1 ht with rfl | ht
    · rw [hd]; simp
    · rcases List.mem_cons.1 ht with rfl | ht
      · exact hl.2 ⟨s, t.data⟩ (by simp)
      · exact hl.2 t (by simp [ht])

/-- **C09 fails whenever the target has data**: its previous buffer stays allocated and no tensor owns it any more
(`others` = all other tensors; none of them owns it, by unique ownership). -/
theorem C09_leaks (h : Heap R) (dst src : Tensor) (p q : Nat) (d1 d2 : List Int) (v1 v2 : List R)
    (H1 : HoldsAt h dst p d1 v1) (H2 : HoldsAt h src q d2 v2) (hpq : p ≠ q) (others : List Tensor)
    (ho : ∀ t ∈ others, t.data ≠ some p) :
    ∃ a b, Tensor.moveAssign dst src = .ok (a, b) ∧ LeakedBlock h (a :: b :: others) p ∧
      ¬ LeakedBlock h (dst :: src :: others) p := by
  obtain ⟨h1, h2, h3, arr, h4⟩ := H1
  obtain ⟨a, b, g1, g2, g3, g4⟩ := C09_move_assign_partial h dst src q d2 v2 H2
  refine ⟨a, b, g1, ⟨⟨_, h4, rfl⟩, fun t ht => ?_⟩, fun hl => hl.2 dst (by simp) h3⟩
  rcases List.mem_cons.1 ht with rfl | ht
  · rw [g2.2.2.1]; intro hc; cases hc; exact hpq rfl
  · rcases List.mem_cons.1 ht with rfl | ht
    · rw [g3]; simp
    · exact ho t ht

/-- **C09**, `t = std::move(t)` loses the data. -/
theorem C09_self_move_loses_data (h : Heap R) (t : Tensor) (p : Nat) (dims : List Int) (v : List R) (H : HoldsAt h t p dims v) :
    ∃ t', Tensor.selfMoveAssign t = .ok t' ∧ t'.data = none ∧ LeakedBlock h [t'] p := by
  obtain ⟨h1, h2, h3, arr, h4⟩ := H
  refine ⟨⟨t.shape, none⟩, by simp [Tensor.selfMoveAssign, assignShape_mk h1], rfl, ⟨_, h4, rfl⟩, by simp⟩

example : HoldsAt exHeap exA 0 [2, 2] [1, 2, 3, 4] ∧ HoldsAt exHeap exB 1 [3] [5, 6, 7] ∧
    ∀ t ∈ [exC, exS], t.data ≠ some 0 := ⟨exA_holds, exB_holds, by decide⟩

/-! ## C10 -/

/-- **C10 (partial)**: destroying a tensor whose buffer came from an array constructor releases exactly that buffer; destroying
it again is reported as a double free; data-less tensors are left alone. Missing: the scalar constructor, see below. -/
theorem C10_destroy_partial (h : Heap R) (t : Tensor) (p : Nat) (cells : List (Option R)) (hd : t.data = some p)
    (hb : h.blocks[p]? = some ⟨cells, true, true⟩) :
    ∃ h', t.destroy h = .ok h' ∧ h'.blocks.length = h.blocks.length ∧ h'.blocks[p]? = some ⟨cells, true, false⟩ ∧
      (∀ q, q ≠ p → h'.blocks[q]? = h.blocks[q]?) ∧ t.destroy h' = .error (.ub .doubleFree) := by
  have hlt : p < h.blocks.length := by rw [List.getElem?_eq_some_iff] at hb; exact hb.1
  refine ⟨⟨h.blocks.set p ⟨cells, true, false⟩⟩, ?_, by simp, by simp [hlt], fun q hq => by simp [Ne.symm hq], ?_⟩
  · simp [Tensor.destroy, hd, Heap.deleteArr, hb]
  · simp [Tensor.destroy, hd, Heap.deleteArr, hlt]

/-- **C10**, data-less tensors. -/
theorem C10_destroy_dataless (h : Heap R) (t : Tensor) (hd : t.data = none) : t.destroy h = .ok h := by
  simp [Tensor.destroy, hd]

/-- **C10**, which constructors give array buffers: every `Fresh` result (zeros, ones, Gaussian, copies, all operators). -/
theorem C10_fresh_destroyable (h h' : Heap R) (t : Tensor) (dims : List Int) (vals : List R) (H : Fresh h h' t dims vals) :
    ∃ h'', t.destroy h' = .ok h'' ∧ h''.blocks = h.blocks ++ [⟨vals.map some, true, false⟩] := by
  obtain ⟨h1, h2, h3, h4⟩ := H
  refine ⟨⟨h'.blocks.set h.blocks.length ⟨vals.map some, true, false⟩⟩, ?_, ?_⟩
  · simp [Tensor.destroy, h3, Heap.deleteArr, h4]
  · simp only [h4, set_last]

/-- **C10 fails for the scalar constructor**: `Tensor t(val)` allocates with `new`, the destructor uses `delete[]`, for every value. -/
theorem C10_scalar_refuted (h : Heap R) (v : R) :
    ∃ t h', Tensor.ofVal h v = .ok (t, h') ∧ t.destroy h' = .error (.ub .mismatchedDelete) := by
  have hs : mkShape [0] = .ok ⟨[0], [1]⟩ := by decide
  refine ⟨⟨⟨[0], [1]⟩, some h.blocks.length⟩, ⟨h.blocks ++ [⟨[some v], false, true⟩]⟩, ?_, ?_⟩
  · simp [Tensor.ofVal, hs, Heap.alloc]
  · simp [Tensor.destroy, Heap.deleteArr]

example : exA.data = some 0 ∧ exHeap.blocks[0]? = some ⟨[some 1, some 2, some 3, some 4], true, true⟩ := ⟨rfl, rfl⟩

/-! ## C11 -/

/-- **C11**, success: same total size; only the reported shape changes: every element by flat index and the buffer stay. -/
theorem C11_reshape (h : Heap R) (t : Tensor) (d1 d2 : List Int) (v : List R) (s : TensorShape) (H : Holds h t d1 v)
    (hs : mkShape d2 = .ok s) (hn : numel d1 = numel d2) :
    ∃ t', t.reshape s = .ok t' ∧ t.reshapeDims d2 = .ok t' ∧ Holds h t' d2 v ∧ t'.data = t.data ∧
      (∀ i, t'.get h i = t.get h i) ∧ t'.chunkAt 0 = t.chunkAt 0 := by
  have key : t.reshape s = .ok ⟨s, t.data⟩ := by
    simp [Tensor.reshape, Tensor.chunkAt, mkShape_chunk0 H.mk, mkShape_chunk0 hs, hn, assignShape_mk hs]
  refine ⟨_, key, by simp [Tensor.reshapeDims, hs, key], ?_, rfl, fun _ => rfl, ?_⟩
  · obtain ⟨p, h1, h2, h3, h4⟩ := H
    exact ⟨p, hs, by omega, h3, h4⟩
  · simp [Tensor.chunkAt, mkShape_chunk0 H.mk, mkShape_chunk0 hs, hn]

/-- **C11**, different totals abort. -/
theorem C11_reshape_abort (t : Tensor) (d1 d2 : List Int) (s : TensorShape) (ht : mkShape d1 = .ok t.shape)
    (hs : mkShape d2 = .ok s) (hn : numel d1 ≠ numel d2) :
    t.reshape s = .error .abort ∧ t.reshapeDims d2 = .error .abort := by
  have : ¬ ((numel d2 : Nat) : Int) = ((numel d1 : Nat) : Int) := by omega
  have key : t.reshape s = .error .abort := by
    simp only [Tensor.reshape, Tensor.chunkAt, mkShape_chunk0 ht, mkShape_chunk0 hs, ok_bind, assertC_false this, error_bind]
  exact ⟨key, by simp [Tensor.reshapeDims, hs, key]⟩

/-- **C11**, invalid dimension lists fail as in C02. -/
theorem C11_reshape_invalid (t : Tensor) (d2 : List Int) (e : Stop) (hs : mkShape d2 = .error e) :
    t.reshapeDims d2 = .error e := by simp [Tensor.reshapeDims, hs]

example : Holds exHeap exA [2, 2] [1, 2, 3, 4] ∧ (∃ s, mkShape [1, 4] = .ok s) ∧ numel [2, 2] = numel [1, 4] :=
  ⟨⟨0, exA_holds⟩, ⟨⟨[1, 4], [4, 4]⟩, by decide⟩, by decide⟩

end Nnet.Tensor
