import Verif.Tensor.ParLemmas
import Verif.Tensor.ShapeLemmas
namespace Nnet.Tensor
variable {R : Type}

/-! ## Extending the heap -/

theorem getElem?_append_some {α : Type _} {l l' : List α} {i : Nat} {a : α} (h : l[i]? = some a) : (l ++ l')[i]? = some a := by
  have hi : i < l.length := by rw [List.getElem?_eq_some_iff] at h; exact h.1
  rw [List.getElem?_append_left hi, h]

theorem read_inv {h : Heap R} {p : Ptr} {i : Int} {v : R} (hr : h.read p i = .ok v) :
    ∃ q k b, p = some q ∧ i = ((k : Nat) : Int) ∧ h.blocks[q]? = some b ∧ b.live = true ∧ b.cells[k]? = some (some v) := by
  unfold Heap.read at hr
  cases ha : h.access p i with
  | error e => simp [ha] at hr
  | ok x =>
    obtain ⟨q, k⟩ := x
    obtain ⟨rfl, rfl, b, hb, hl, hk⟩ := access_some ha
    refine ⟨q, k, b, rfl, rfl, hb, hl, ?_⟩
    rw [ha, ok_bind] at hr
    simp only at hr
    have hc : h.cell q k = b.cells[k] := by simp [Heap.cell, hb, hk]
    rw [hc] at hr
    cases hck : b.cells[k] with
    | none => simp [hck] at hr
    | some w => simp [hck] at hr; rw [List.getElem?_eq_getElem hk, hck, hr]

theorem read_mk {h : Heap R} {q k : Nat} {b : Block R} {v : R} (hb : h.blocks[q]? = some b) (hl : b.live = true)
    (hc : b.cells[k]? = some (some v)) : h.read (some q) (k : Int) = .ok v := by
  have hk : k < b.cells.length := by rw [List.getElem?_eq_some_iff] at hc; exact hc.1
  unfold Heap.read
  rw [access_ok hb hl hk, ok_bind]
  simp [Heap.cell, hb, hc]

theorem read_append {h : Heap R} {p : Ptr} {i : Int} {v : R} (hr : h.read p i = .ok v) (bs : List (Block R)) :
    (⟨h.blocks ++ bs⟩ : Heap R).read p i = .ok v := by
  obtain ⟨q, k, b, rfl, rfl, hb, hl, hc⟩ := read_inv hr
  exact read_mk (getElem?_append_some hb) hl hc

theorem readAll_mono {h h' : Heap R} (hm : ∀ p i v, h.read p i = .ok v → h'.read p i = .ok v) {cs : List Cell} {vs : List R}
    (hr : readAll h cs = .ok vs) : readAll h' cs = .ok vs := by
  unfold readAll at *
  induction cs generalizing vs with
  | nil => exact hr
  | cons c cs ih =>
    rw [mapM_cons'] at *
    cases h1 : h.read c.ptr c.idx with
    | error e => simp [h1] at hr
    | ok v =>
      rw [h1, ok_bind] at hr
      cases h2 : cs.mapM (fun c => h.read c.ptr c.idx) with
      | error e => simp [h2] at hr
      | ok ws =>
        rw [h2, ok_bind] at hr
        rw [hm _ _ _ h1, ok_bind, ih h2, ok_bind]; exact hr

theorem readAll_append {h : Heap R} {cs : List Cell} {vs : List R} (hr : readAll h cs = .ok vs) (bs : List (Block R)) :
    readAll (⟨h.blocks ++ bs⟩ : Heap R) cs = .ok vs :=
  readAll_mono (fun _ _ _ h => read_append h bs) hr

theorem readAll_mem {h : Heap R} {cs : List Cell} {vs : List R} (hr : readAll h cs = .ok vs) {c : Cell} (hc : c ∈ cs) :
    ∃ v, h.read c.ptr c.idx = .ok v := by
  obtain ⟨v, _, hv⟩ := mapM_mem_ok hr c hc
  exact ⟨v, hv⟩

/-! ## Tensors that hold values -/

theorem Holds.read {h : Heap R} {t : Tensor} {dims : List Int} {vals : List R} (H : Holds h t dims vals) {i : Nat} {v : R}
    (hi : vals[i]? = some v) : h.read t.data (i : Int) = .ok v := by
  obtain ⟨p, h1, h2, h3, arr, h4⟩ := H
  rw [h3]
  exact read_mk h4 rfl (by simp [hi])

theorem Holds.append {h : Heap R} {t : Tensor} {dims : List Int} {vals : List R} (H : Holds h t dims vals)
    (bs : List (Block R)) : Holds (⟨h.blocks ++ bs⟩ : Heap R) t dims vals := by
  obtain ⟨p, h1, h2, h3, arr, h4⟩ := H
  exact ⟨p, h1, h2, h3, arr, getElem?_append_some h4⟩

theorem Holds.mk {h : Heap R} {t : Tensor} {dims : List Int} {vals : List R} (H : Holds h t dims vals) :
    mkShape dims = .ok t.shape := H.choose_spec.1

theorem Holds.len {h : Heap R} {t : Tensor} {dims : List Int} {vals : List R} (H : Holds h t dims vals) :
    vals.length = numel dims := H.choose_spec.2.1

theorem Holds.ptr {h : Heap R} {t : Tensor} {dims : List Int} {vals : List R} (H : Holds h t dims vals) :
    ∃ p, t.data = some p ∧ p < h.blocks.length := by
  obtain ⟨p, h1, h2, h3, arr, h4⟩ := H
  exact ⟨p, h3, by rw [List.getElem?_eq_some_iff] at h4; exact h4.1⟩

theorem Fresh.holds {h h' : Heap R} {t : Tensor} {dims : List Int} {vals : List R} (H : Fresh h h' t dims vals) :
    Holds h' t dims vals := by
  obtain ⟨h1, h2, h3, h4⟩ := H
  exact ⟨_, h1, h2, h3, true, by rw [h4]; simp⟩

/-- Whatever held values before still does after an operation that only adds blocks. -/
theorem Fresh.keeps {h h' : Heap R} {t u : Tensor} {dims d' : List Int} {vals w : List R} (H : Fresh h h' t dims vals)
    (K : Holds h u d' w) : Holds h' u d' w := by
  obtain ⟨h1, h2, h3, h4⟩ := H
  have := K.append [⟨vals.map some, true, true⟩]
  rw [← h4] at this; exact this

theorem readAll_two {h : Heap R} {a b : Cell} {x y : R} (ha : h.read a.ptr a.idx = .ok x) (hb : h.read b.ptr b.idx = .ok y) :
    readAll h [a, b] = .ok [x, y] := by
  rw [readAll_cons, ha, ok_bind, readAll_cons, hb, ok_bind]; rfl

theorem readAll_one {h : Heap R} {a : Cell} {x : R} (ha : h.read a.ptr a.idx = .ok x) :
    readAll h [a] = .ok [x] := by
  rw [readAll_cons, ha, ok_bind]; rfl

/-! ## Allocation and loops into the new block -/

/-- The heap after allocating a zero-filled array. -/
def withZeros [Zero R] (h : Heap R) (n : Nat) : Heap R := ⟨h.blocks ++ [⟨List.replicate n (some 0), true, true⟩]⟩

theorem ofShape_ok [Zero R] (h : Heap R) {dims : List Int} {s : TensorShape} (hs : mkShape dims = .ok s) :
    Tensor.ofShape h s = .ok (⟨s, some h.blocks.length⟩, withZeros h (numel dims)) := by
  simp [Tensor.ofShape, copyShape_mk hs, mkShape_chunk0 hs, Heap.alloc, withZeros]

theorem parFor_fresh [Zero R] (σ : Sched) (h : Heap R) (N m : Nat) (hm : m ≤ N) (body : Int → Res (Iter R))
    (it : Nat → Iter R) (vals : Nat → List R)
    (hbody : ∀ i < m, body i = .ok (it i))
    (htgt : ∀ i < m, (it i).target = ⟨some h.blocks.length, (i : Int)⟩)
    (hvals : ∀ i < m, readAll h (it i).reads = .ok (vals i)) :
    parFor σ (withZeros h N) m body = .ok ⟨h.blocks ++ [⟨(List.range N).map (fun j =>
        some (if j < m then ((it j).write (vals j)).getD 0 else 0)), true, true⟩]⟩ := by
  have hb : (withZeros h N).blocks[h.blocks.length]? = some ⟨List.replicate N (some 0), true, true⟩ := by
    simp [withZeros]
  rw [parFor_block σ hb rfl m 0 (by simpa using hm) body it vals hbody (by simpa using htgt)]
  · congr 1
    simp only [withZeros, Heap.mk.injEq]
    rw [List.set_append_right _ _ (le_refl _)]
    simp only [Nat.sub_self, List.set_cons_zero, List.append_cancel_left_eq, List.cons.injEq, and_true, Block.mk.injEq]
    apply List.ext_getElem
    · simp
    · intro j h1 h2
      simp only [List.getElem_mapIdx, List.getElem_map, List.getElem_range, List.getElem_replicate, Nat.zero_le, true_and,
        Nat.zero_add, Nat.sub_zero]
      by_cases hj : j < m
      · simp only [hj, if_true]
        cases (it j).write (vals j) <;> rfl
      · simp [hj]
  · intro i hi c hc hp
    obtain ⟨v, hv⟩ := readAll_mem (hvals i hi) hc
    obtain ⟨q, k, b, h1, h2, h3, -⟩ := read_inv hv
    rw [h1] at hp
    cases hp
    rw [List.getElem?_eq_some_iff] at h3
    exact absurd h3.1 (lt_irrefl _)
  · intro i hi
    exact readAll_append (hvals i hi) _

/-- A loop with one iteration per element of the new tensor. -/
theorem parFor_full [Zero R] (σ : Sched) (h : Heap R) (N : Nat) (body : Int → Res (Iter R))
    (it : Nat → Iter R) (vals : Nat → List R) (res : List R) (hlen : res.length = N)
    (hbody : ∀ i < N, body i = .ok (it i))
    (htgt : ∀ i < N, (it i).target = ⟨some h.blocks.length, (i : Int)⟩)
    (hvals : ∀ i < N, readAll h (it i).reads = .ok (vals i))
    (hres : ∀ (i : Nat) (hi : i < N), ((it i).write (vals i)).getD 0 = res[i]) :
    parFor σ (withZeros h N) N body = .ok ⟨h.blocks ++ [⟨res.map some, true, true⟩]⟩ := by
  rw [parFor_fresh σ h N N (le_refl _) body it vals hbody htgt hvals]
  congr 5
  apply List.ext_getElem
  · simp [hlen]
  · intro j h1 h2
    have hj : j < N := by simpa using h1
    simp [hj, hres j hj]

/-! ## Elementwise operations -/

theorem mapOp_ok [Zero R] (g : R → Option R) (σ : Sched) {h : Heap R} {t : Tensor} {dims : List Int} {v : List R}
    (H : Holds h t dims v) :
    ∃ out h', mapOp g σ h t = .ok (out, h') ∧ Fresh h h' out dims (v.map (fun x => (g x).getD 0)) := by
  have hs := H.mk
  have hl := H.len
  refine ⟨⟨t.shape, some h.blocks.length⟩, ⟨h.blocks ++ [⟨(v.map (fun x => (g x).getD 0)).map some, true, true⟩]⟩, ?_,
    hs, by simpa using hl, rfl, rfl⟩
  unfold mapOp
  rw [ofShape_ok h hs, ok_bind]
  simp only [Tensor.chunkAt, mkShape_chunk0 hs, ok_bind]
  rw [parFor_full σ h (numel dims) _ (fun i => iter1 (t.cell i) g ⟨some h.blocks.length, i⟩)
    (fun i => match v[i]? with | some x => [x] | none => []) (v.map (fun x => (g x).getD 0)) (by simpa using hl)
    (fun i hi => rfl) (fun i hi => rfl)]
  · rfl
  · intro i hi
    have hv : v[i]? = some (v[i]'(by omega)) := List.getElem?_eq_getElem _
    simp only [hv, iter1]
    exact readAll_one (H.read hv)
  · intro i hi
    have hv : v[i]? = some (v[i]'(by omega)) := List.getElem?_eq_getElem _
    simp [hv, iter1]

/-- `t2` may have other dimensions than `t1`, as long as it has at least as many elements. -/
theorem zipLoop_ok [Zero R] (g : R → R → Option R) (σ : Sched) {h : Heap R} {t1 t2 : Tensor} {d1 d2 : List Int} {v1 v2 : List R}
    (H1 : Holds h t1 d1 v1) (H2 : Holds h t2 d2 v2) (hle : v1.length ≤ v2.length) :
    ∃ out h', zipLoop g σ h t1 t2 = .ok (out, h') ∧ Fresh h h' out d1 (List.zipWith (fun x y => (g x y).getD 0) v1 v2) := by
  have hs := H1.mk
  have hl := H1.len
  have hlz : (List.zipWith (fun x y => (g x y).getD 0) v1 v2).length = numel d1 := by simp; omega
  refine ⟨⟨t1.shape, some h.blocks.length⟩, ⟨h.blocks ++ [⟨(List.zipWith (fun x y => (g x y).getD 0) v1 v2).map some, true, true⟩]⟩,
    ?_, hs, hlz, rfl, rfl⟩
  unfold zipLoop
  rw [ofShape_ok h hs, ok_bind]
  simp only [Tensor.chunkAt, mkShape_chunk0 hs, ok_bind]
  rw [parFor_full σ h (numel d1) _ (fun i => iter2 (t1.cell i) (t2.cell i) g ⟨some h.blocks.length, i⟩)
    (fun i => match v1[i]?, v2[i]? with | some x, some y => [x, y] | _, _ => []) _ hlz
    (fun i hi => rfl) (fun i hi => rfl)]
  · rfl
  · intro i hi
    have hv : v1[i]? = some (v1[i]'(by omega)) := List.getElem?_eq_getElem _
    have hw : v2[i]? = some (v2[i]'(by omega)) := List.getElem?_eq_getElem _
    simp only [hv, hw, iter2]
    exact readAll_two (H1.read hv) (H2.read hw)
  · intro i hi
    have hv : v1[i]? = some (v1[i]'(by omega)) := List.getElem?_eq_getElem _
    have hw : v2[i]? = some (v2[i]'(by omega)) := List.getElem?_eq_getElem _
    simp [hv, hw, iter2]

/-! ## Broadcasting -/

theorem holds_shapeAt {h : Heap R} {t : Tensor} {dims : List Int} {v : List R} (H : Holds h t dims v) {i : Nat} {d : Int}
    (hi : dims[i]? = some d) : t.shapeAt i = .ok d := by
  have hlt : i < dims.length := by rw [List.getElem?_eq_some_iff] at hi; exact hi.1
  have := mkShape_shapeAt H.mk i hlt
  rw [List.getElem?_eq_getElem hlt] at hi
  rw [Tensor.shapeAt, this]; simpa using hi

theorem checkSuffix_ok {h : Heap R} {t1 t2 : Tensor} {pre d2 : List Int} {v1 v2 : List R}
    (H1 : Holds h t1 (pre ++ d2) v1) (H2 : Holds h t2 d2 v2) :
    checkSuffix t1 t2 (t1.shape.size - t2.shape.size) = .ok () := by
  have e1 := mkShape_size H1.mk
  have e2 := mkShape_size H2.mk
  have hoff : t1.shape.size - t2.shape.size = (pre.length : Int) := by rw [e1, e2]; simp
  rw [hoff]
  unfold checkSuffix
  rw [assertC_true (by omega), ok_bind]
  apply forM_ok
  intro i hi
  rw [e2] at hi
  have hi : i < d2.length := by simpa using List.mem_range.1 hi
  have a1 : d2[i]? = some d2[i] := List.getElem?_eq_getElem hi
  have a2 : (pre ++ d2)[i + pre.length]? = some d2[i] := by
    rw [List.getElem?_append_right (by omega)]; simp [hi]
  rw [holds_shapeAt H2 a1, ok_bind]
  have := holds_shapeAt H1 a2
  rw [show ((i : Int) + (pre.length : Int)) = ((i + pre.length : Nat) : Int) by push_cast; rfl, this, ok_bind]
  exact assertC_true rfl

/-- How many leading elements of the result the broadcasting loop computes. -/
def written (pre d2 : List Int) : Nat := numel ((pre ++ d2).drop (pre.length - 1))

theorem numel_pos_dims {l : List Int} (h : ∀ x ∈ l, 0 < x) : numel l = l.prod.toNat := by
  have := prod_pos' h
  unfold numel
  rw [if_neg (by omega)]

theorem valid_tail {d : Int} {ds : List Int} (h : ValidDims (d :: ds)) : ∀ x ∈ ds, 0 < x := by
  obtain ⟨d', ds', he, -, h1⟩ := h
  cases he; exact h1

theorem valid_drop_pos {dims : List Int} (h : ValidDims dims) (k : Nat) : ∀ x ∈ dims.drop (k + 1), 0 < x := by
  obtain ⟨d, ds, rfl, -, h1⟩ := h
  intro x hx
  exact h1 x (List.mem_of_mem_drop hx)

theorem prod_toNat_append {a b : List Int} (ha : ∀ x ∈ a, 0 ≤ x) (hb : ∀ x ∈ b, 0 ≤ x) :
    (a ++ b).prod.toNat = a.prod.toNat * b.prod.toNat := by
  rw [List.prod_append, Int.toNat_mul (prod_nonneg' ha) (prod_nonneg' hb)]

theorem written_le {pre d2 : List Int} (h : ValidDims (pre ++ d2)) (h0 : pre.length ≤ 1 ∨ (pre ++ d2).prod ≠ 0) :
    written pre d2 ≤ numel (pre ++ d2) := by
  unfold written
  rcases Nat.eq_zero_or_pos (pre.length - 1) with hz | hz
  · rw [hz]; simp
  · set k := pre.length - 1 with hk
    have h0 : (pre ++ d2).prod ≠ 0 := h0.resolve_left (by omega)
    have hpos := valid_drop_pos h (k - 1)
    rw [show k - 1 + 1 = k by omega] at hpos
    rw [numel_pos_dims hpos]
    have hsplit := List.take_append_drop k (pre ++ d2)
    have hp : ((pre ++ d2)).prod.toNat = ((pre ++ d2).take k).prod.toNat * ((pre ++ d2).drop k).prod.toNat := by
      conv_lhs => rw [← hsplit]
      exact prod_toNat_append (fun x hx => h.nonneg x (List.mem_of_mem_take hx)) (fun x hx => h.nonneg x (List.mem_of_mem_drop hx))
    unfold numel
    rw [if_neg h0, hp]
    have : 0 < ((pre ++ d2).take k).prod.toNat := by
      by_contra hc
      have : ((pre ++ d2).take k).prod.toNat = 0 := by omega
      rw [this] at hp
      have := prod_nonneg' h.nonneg
      omega
    exact Nat.le_mul_of_pos_left _ this

theorem chunk_written {pre d2 : List Int} {s : TensorShape} (hs : mkShape (pre ++ d2) = .ok s) (hp : pre ≠ []) :
    s.chunkAt ((pre.length : Int) - 1) = .ok (written pre d2 : Int) := by
  have hv := (mkShape_ok_imp hs).1
  have hpl : 0 < pre.length := List.length_pos_iff.2 hp
  have e : ((pre.length : Int) - 1) = ((pre.length - 1 : Nat) : Int) := by omega
  rw [e, mkShape_chunkAt hs _ (by simp; omega)]
  unfold written
  congr 1
  by_cases hz : pre.length - 1 = 0
  · rw [hz]; simp only [true_and, List.drop_zero]
    have := prod_nonneg' hv.nonneg
    unfold numel
    by_cases h0 : (pre ++ d2).prod = 0
    · simp [h0]
    · rw [if_neg h0, if_neg h0]; omega
  · rw [if_neg (by simp [hz])]
    have hpos := valid_drop_pos hv (pre.length - 1 - 1)
    rw [show pre.length - 1 - 1 + 1 = pre.length - 1 by omega] at hpos
    rw [numel_pos_dims hpos]
    have := prod_pos' hpos
    omega

theorem cmod_ok {i m : Nat} (hm : 0 < m) : cmod (i : Int) (m : Int) = .ok ((i % m : Nat) : Int) := by
  have : (m : Int) ≠ 0 := by omega
  rw [cmod, if_neg this]
  congr 1

/-- The elements the broadcasting operators compute, exactly. -/
def broadcastVals [Zero R] (f : R → R → R) (pre d2 : List Int) (v1 v2 : List R) : List R :=
  (List.range (numel (pre ++ d2))).map (fun j =>
    if j < written pre d2 then
      (match v1[j]?, v2[j % v2.length]? with
       | some x, some y => f x y
       | _, _ => 0)
    else 0)

theorem broadcastOp_ok [Zero R] (f : R → R → R) (σ : Sched) {h : Heap R} {t1 t2 : Tensor} {pre d2 : List Int} {v1 v2 : List R}
    (H1 : Holds h t1 (pre ++ d2) v1) (H2 : Holds h t2 d2 v2) (h0 : pre.length ≤ 1 ∨ (pre ++ d2).prod ≠ 0) :
    ∃ out h', broadcastOp f σ h t1 t2 = .ok (out, h') ∧ Fresh h h' out (pre ++ d2) (broadcastVals f pre d2 v1 v2) := by
  have hs := H1.mk
  have hv := (mkShape_ok_imp hs).1
  have hl := H1.len
  have hl2 := H2.len
  have hoff : t1.shape.size - t2.shape.size = (pre.length : Int) := by
    rw [mkShape_size H1.mk, mkShape_size H2.mk]; simp
  have hbl : (broadcastVals f pre d2 v1 v2).length = numel (pre ++ d2) := by simp [broadcastVals]
  have hwl := written_le hv h0
  have hd2pos : 0 < v2.length := by
    rw [hl2]; unfold numel
    have := prod_nonneg' ((mkShape_ok_imp H2.mk).1).nonneg
    split <;> omega
  refine ⟨⟨t1.shape, some h.blocks.length⟩, ⟨h.blocks ++ [⟨(broadcastVals f pre d2 v1 v2).map some, true, true⟩]⟩,
    ?_, hs, hbl, rfl, rfl⟩
  have hread : ∀ i < written pre d2, readAll h [t1.cell i, t2.cell ((i % v2.length : Nat) : Int)] =
      .ok (match v1[i]?, v2[i % v2.length]? with | some x, some y => [x, y] | _, _ => []) := by
    intro i hi
    have a1 : v1[i]? = some (v1[i]'(by omega)) := List.getElem?_eq_getElem _
    have hlt := Nat.mod_lt i hd2pos
    have a2 : v2[i % v2.length]? = some (v2[i % v2.length]) := List.getElem?_eq_getElem hlt
    rw [a1, a2]
    exact readAll_two (H1.read a1) (H2.read a2)
  have hfin : ∀ (L : List (Option R)), L = (List.range (numel (pre ++ d2))).map (fun j =>
        some (if j < written pre d2 then
          ((iter2 (t1.cell j) (t2.cell ((j % v2.length : Nat) : Int)) (fun x y => some (f x y)) ⟨some h.blocks.length, j⟩).write
            (match v1[j]?, v2[j % v2.length]? with | some x, some y => [x, y] | _, _ => [])).getD 0 else 0)) →
      L = (broadcastVals f pre d2 v1 v2).map some := by
    intro L hL
    rw [hL, broadcastVals, List.map_map]
    apply List.map_congr_left
    intro j hj
    simp only [Function.comp]
    by_cases hjw : j < written pre d2
    · have a1 : v1[j]? = some (v1[j]'(by omega)) := List.getElem?_eq_getElem _
      have hlt := Nat.mod_lt j hd2pos
      have a2 : v2[j % v2.length]? = some (v2[j % v2.length]) := List.getElem?_eq_getElem hlt
      simp [hjw, a1, a2, iter2]
    · simp [hjw]
  unfold broadcastOp
  simp only [checkSuffix_ok H1 H2, ok_bind]
  rw [ofShape_ok h hs, ok_bind, hoff]
  simp only [Tensor.chunkAt]
  by_cases hp : pre = []
  · subst hp
    rw [if_pos (by simp)]
    simp only [mkShape_chunk0 hs, ok_bind]
    have hw : written [] d2 = numel ([] ++ d2) := by simp [written]
    rw [parFor_fresh σ h (numel ([] ++ d2)) (numel ([] ++ d2)) (le_refl _) _
      (fun i => iter2 (t1.cell i) (t2.cell ((i % v2.length : Nat) : Int)) (fun x y => some (f x y)) ⟨some h.blocks.length, i⟩)
      (fun i => match v1[i]?, v2[i % v2.length]? with | some x, some y => [x, y] | _, _ => [])]
    · simp only [ok_bind, pure_eq_ok]
      congr 6
      apply hfin
      rw [hw]
    · intro i hi
      have : i % v2.length = i := Nat.mod_eq_of_lt (by rw [hl2]; simpa using hi)
      simp only [this]; rfl
    · intro i hi; rfl
    · intro i hi; exact hread i (by rw [hw]; exact hi)
  · have hpl : 0 < pre.length := List.length_pos_iff.2 hp
    rw [if_neg (by omega)]
    simp only [chunk_written hs hp, ok_bind]
    have hd2v := (mkShape_ok_imp H2.mk).1
    have hlen : (d2.length) > 0 := valid_length_pos hd2v
    have hm : t1.shape.chunkAt (pre.length : Int) = .ok (v2.length : Int) := by
      rw [mkShape_chunkAt hs _ (by simp; omega), if_neg (by intro hc; omega), hl2]
      have hpos := valid_drop_pos hv (pre.length - 1)
      rw [show pre.length - 1 + 1 = pre.length by omega] at hpos
      simp only [List.drop_left] at hpos ⊢
      rw [numel_pos_dims hpos]
      have := prod_pos' hpos
      congr 1; omega
    simp only [hm, ok_bind]
    rw [parFor_fresh σ h (numel (pre ++ d2)) (written pre d2) hwl _
      (fun i => iter2 (t1.cell i) (t2.cell ((i % v2.length : Nat) : Int)) (fun x y => some (f x y)) ⟨some h.blocks.length, i⟩)
      (fun i => match v1[i]?, v2[i % v2.length]? with | some x, some y => [x, y] | _, _ => [])]
    · simp only [ok_bind, pure_eq_ok]
      congr 6
      exact hfin _ rfl
    · intro i hi
      rw [cmod_ok hd2pos, ok_bind]; rfl
    · intro i hi; rfl
    · exact hread

end Nnet.Tensor
