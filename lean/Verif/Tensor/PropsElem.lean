import Verif.Tensor.IndexLemmas
import Verif.Tensor.PropsLife
/-!
# C13 - C17: elementwise operations, broadcasting, shape checks, comparisons

All theorems hold for every OpenMP schedule `σ`; a data race would be the outcome `UB.dataRace`.
-/
namespace Nnet.Tensor
variable {R : Type}

/-- `CMath` on `Int`, only for concrete examples. -/
instance : CMath Int := ⟨id, id, id, fun x y => x ^ y.toNat, fun x => |x|, id⟩

/-! ## C13 -/

theorem broadcastVals_same [Zero R] (f : R → R → R) {d : List Int} {v1 v2 : List R} (h1 : v1.length = numel d)
    (h2 : v2.length = numel d) : broadcastVals f [] d v1 v2 = List.zipWith f v1 v2 := by
  apply List.ext_getElem
  · simp [broadcastVals, h1, h2]
  · intro j hj _
    have hj : j < numel d := by simpa [broadcastVals] using hj
    have hw : j < written [] d := by simpa [written] using hj
    have e : j % v2.length = j := Nat.mod_eq_of_lt (by omega)
    have a1 : v1[j]? = some (v1[j]'(by omega)) := List.getElem?_eq_getElem _
    have a2 : v2[j]? = some (v2[j]'(by omega)) := List.getElem?_eq_getElem _
    simp [broadcastVals, hw, e, a1, a2]

theorem broadcast_same [Zero R] (f : R → R → R) (σ : Sched) {h : Heap R} {t1 t2 : Tensor} {d : List Int} {v1 v2 : List R}
    (H1 : Holds h t1 d v1) (H2 : Holds h t2 d v2) :
    ∃ t h', broadcastOp f σ h t1 t2 = .ok (t, h') ∧ Fresh h h' t d (List.zipWith f v1 v2) := by
  obtain ⟨t, h', e, F⟩ := broadcastOp_ok f σ (pre := []) H1 H2 (.inl (by simp))
  rw [broadcastVals_same f H1.len H2.len] at F
  exact ⟨t, h', e, F⟩

/-- **C13**, `t1 + t2`. -/
theorem C13_add [Zero R] [Add R] (σ : Sched) (h : Heap R) (t1 t2 : Tensor) (d : List Int) (v1 v2 : List R)
    (H1 : Holds h t1 d v1) (H2 : Holds h t2 d v2) :
    ∃ t h', addTT σ h t1 t2 = .ok (t, h') ∧ Fresh h h' t d (List.zipWith (fun x y => x + y) v1 v2) := broadcast_same _ σ H1 H2
/-- **C13**, `t1 - t2`. -/
theorem C13_sub [Zero R] [Sub R] (σ : Sched) (h : Heap R) (t1 t2 : Tensor) (d : List Int) (v1 v2 : List R)
    (H1 : Holds h t1 d v1) (H2 : Holds h t2 d v2) :
    ∃ t h', subTT σ h t1 t2 = .ok (t, h') ∧ Fresh h h' t d (List.zipWith (fun x y => x - y) v1 v2) := broadcast_same _ σ H1 H2
/-- **C13**, `t1 * t2`. -/
theorem C13_mul [Zero R] [Mul R] (σ : Sched) (h : Heap R) (t1 t2 : Tensor) (d : List Int) (v1 v2 : List R)
    (H1 : Holds h t1 d v1) (H2 : Holds h t2 d v2) :
    ∃ t h', mulTT σ h t1 t2 = .ok (t, h') ∧ Fresh h h' t d (List.zipWith (fun x y => x * y) v1 v2) := broadcast_same _ σ H1 H2
/-- **C13**, `t1 / t2`. -/
theorem C13_div [Zero R] [Div R] (σ : Sched) (h : Heap R) (t1 t2 : Tensor) (d : List Int) (v1 v2 : List R)
    (H1 : Holds h t1 d v1) (H2 : Holds h t2 d v2) :
    ∃ t h', divTT σ h t1 t2 = .ok (t, h') ∧ Fresh h h' t d (List.zipWith (fun x y => x / y) v1 v2) := broadcast_same _ σ H1 H2

theorem powCheck_ok {h : Heap R} {t1 t2 : Tensor} {d : List Int} {v1 v2 : List R} (H1 : Holds h t1 d v1) (H2 : Holds h t2 d v2) :
    (List.range t1.shape.size.toNat).forM (fun (i : Nat) => do
      let a ← t1.shapeAt i
      let b ← t2.shapeAt i
      assertC (a = b)) = (.ok () : Res Unit) := by
  apply forM_ok
  intro i hi
  rw [mkShape_size H1.mk] at hi
  have hi : i < d.length := by simpa using List.mem_range.1 hi
  have a1 : d[i]? = some d[i] := List.getElem?_eq_getElem hi
  simp only [holds_shapeAt H1 a1, holds_shapeAt H2 a1, ok_bind]
  exact assertC_true trivial

/-- **C13**, `t1 ^ t2`. -/
theorem C13_pow [Zero R] [CMath R] (σ : Sched) (h : Heap R) (t1 t2 : Tensor) (d : List Int) (v1 v2 : List R)
    (H1 : Holds h t1 d v1) (H2 : Holds h t2 d v2) :
    ∃ t h', powTT σ h t1 t2 = .ok (t, h') ∧ Fresh h h' t d (List.zipWith CMath.pow v1 v2) := by
  obtain ⟨t, h', e, F⟩ := zipLoop_ok (fun x y => some (CMath.pow x y)) σ H1 H2 (by rw [H1.len, H2.len])
  refine ⟨t, h', ?_, F⟩
  unfold powTT
  have hs : t1.shape.size = t2.shape.size := by rw [mkShape_size H1.mk, mkShape_size H2.mk]
  rw [assertC_true hs, ok_bind, powCheck_ok H1 H2, ok_bind, e]

example : ∃ (h : Heap Int) (t1 t2 : Tensor), Holds h t1 [2, 2] [1, 2, 3, 4] ∧ Holds h t2 [2, 2] [5, 6, 7, 8] :=
  ⟨⟨[⟨[some 1, some 2, some 3, some 4], true, true⟩, ⟨[some 5, some 6, some 7, some 8], true, true⟩]⟩,
   ⟨⟨[2, 2], [4, 2]⟩, some 0⟩, ⟨⟨[2, 2], [4, 2]⟩, some 1⟩,
   ⟨0, by decide, by decide, rfl, true, rfl⟩, ⟨1, by decide, by decide, rfl, true, rfl⟩⟩
example : ∃ t h', addTT (fun s => s) exHeap exA exA = .ok (t, h') ∧ t.get h' 3 = .ok 8 := by
  obtain ⟨t, h', e, F⟩ := C13_add (fun s => s) exHeap exA exA _ _ _ ⟨0, exA_holds⟩ ⟨0, exA_holds⟩
  exact ⟨t, h', e, F.holds.read rfl⟩

/-! ## C14 -/

/-- The elements computed, at a multi-index. -/
theorem broadcastVals_at [Zero R] (f : R → R → R) {pre d2 : List Int} {v1 v2 : List R} (h1 : v1.length = numel (pre ++ d2))
    (h2 : v2.length = numel d2) {is : List Nat} (hi : IsIndex (pre ++ d2) is) :
    ∃ a b, v1[flatIndex (pre ++ d2) is]? = some a ∧ v2[flatIndex d2 (is.drop pre.length)]? = some b ∧
      (broadcastVals f pre d2 v1 v2)[flatIndex (pre ++ d2) is]? =
        some (if flatIndex (pre ++ d2) is < written pre d2 then f a b else 0) := by
  have hpos := isIndex_pos hi
  have hlt := flatIndex_lt hi
  rw [← numel_pos_dims hpos] at hlt
  have hpos2 := isIndex_pos (isIndex_drop hi)
  have hlt2 := flatIndex_lt (isIndex_drop hi)
  have hmod := flatIndex_mod hi
  rw [← numel_pos_dims hpos2, ← h2] at hlt2 hmod
  refine ⟨v1[flatIndex (pre ++ d2) is]'(by omega), v2[flatIndex d2 (is.drop pre.length)], List.getElem?_eq_getElem _,
    List.getElem?_eq_getElem _, ?_⟩
  have a1 : v1[flatIndex (pre ++ d2) is]? = some (v1[flatIndex (pre ++ d2) is]'(by omega)) := List.getElem?_eq_getElem _
  have a2 : v2[flatIndex d2 (is.drop pre.length)]? = some (v2[flatIndex d2 (is.drop pre.length)]) := List.getElem?_eq_getElem hlt2
  simp [broadcastVals, hlt, hmod, a1, a2]

theorem broadcast_rank1 [Zero R] (f : R → R → R) (σ : Sched) {h : Heap R} {t1 t2 : Tensor} {pre d2 : List Int} {v1 v2 : List R}
    (hr : pre.length ≤ 1) (H1 : Holds h t1 (pre ++ d2) v1) (H2 : Holds h t2 d2 v2) :
    ∃ t h' out, broadcastOp f σ h t1 t2 = .ok (t, h') ∧ Fresh h h' t (pre ++ d2) out ∧ IsBroadcast f pre d2 v1 v2 out := by
  obtain ⟨t, h', e, F⟩ := broadcastOp_ok f σ H1 H2 (.inl hr)
  refine ⟨t, h', _, e, F, fun is hi => ?_⟩
  obtain ⟨a, b, ha, hb, hc⟩ := broadcastVals_at f H1.len H2.len hi
  refine ⟨a, b, ha, hb, ?_⟩
  have hw : written pre d2 = numel (pre ++ d2) := by
    unfold written
    rw [show pre.length - 1 = 0 by omega]; simp
  have hlt := flatIndex_lt hi
  rw [← numel_pos_dims (isIndex_pos hi)] at hlt
  rw [hc, hw, if_pos hlt]

/-- **C14 (partial)**: `+ - * /` with a right operand of the same rank or of rank one less. Missing: rank differences of two or
more, where the claim is false (`C14_refuted`) and `C14_exact` says what happens instead. -/
theorem C14_broadcast_partial [Zero R] [Add R] [Sub R] [Mul R] [Div R] (σ : Sched) (h : Heap R) (t1 t2 : Tensor)
    (pre d2 : List Int) (v1 v2 : List R) (hr : pre.length ≤ 1) (H1 : Holds h t1 (pre ++ d2) v1) (H2 : Holds h t2 d2 v2) :
    (∃ t h' out, addTT σ h t1 t2 = .ok (t, h') ∧ Fresh h h' t (pre ++ d2) out ∧ IsBroadcast (fun x y => x + y) pre d2 v1 v2 out) ∧
    (∃ t h' out, subTT σ h t1 t2 = .ok (t, h') ∧ Fresh h h' t (pre ++ d2) out ∧ IsBroadcast (fun x y => x - y) pre d2 v1 v2 out) ∧
    (∃ t h' out, mulTT σ h t1 t2 = .ok (t, h') ∧ Fresh h h' t (pre ++ d2) out ∧ IsBroadcast (fun x y => x * y) pre d2 v1 v2 out) ∧
    (∃ t h' out, divTT σ h t1 t2 = .ok (t, h') ∧ Fresh h h' t (pre ++ d2) out ∧ IsBroadcast (fun x y => x / y) pre d2 v1 v2 out) :=
  ⟨broadcast_rank1 _ σ hr H1 H2, broadcast_rank1 _ σ hr H1 H2, broadcast_rank1 _ σ hr H1 H2, broadcast_rank1 _ σ hr H1 H2⟩

/-- **C14, what the code does for every rank difference** (for the non-empty shapes): with `pre.length >= 2` only the elements
whose leading `pre.length - 1` indices are 0 (positions below the product of the remaining dimensions) are combined; all others
are 0. -/
theorem C14_exact [Zero R] (f : R → R → R) (σ : Sched) (h : Heap R) (t1 t2 : Tensor)
    (pre d2 : List Int) (v1 v2 : List R) (hz : (pre ++ d2).prod ≠ 0) (H1 : Holds h t1 (pre ++ d2) v1) (H2 : Holds h t2 d2 v2) :
    ∃ t h' out, broadcastOp f σ h t1 t2 = .ok (t, h') ∧ Fresh h h' t (pre ++ d2) out ∧
      ∀ is, IsIndex (pre ++ d2) is → ∃ a b, v1[flatIndex (pre ++ d2) is]? = some a ∧
        v2[flatIndex d2 (is.drop pre.length)]? = some b ∧
        out[flatIndex (pre ++ d2) is]? =
          some (if flatIndex (pre ++ d2) is < ((pre ++ d2).drop (pre.length - 1)).prod.toNat then f a b else 0) := by
  obtain ⟨t, h', e, F⟩ := broadcastOp_ok f σ H1 H2 (.inr hz)
  refine ⟨t, h', _, e, F, fun is hi => ?_⟩
  obtain ⟨a, b, ha, hb, hc⟩ := broadcastVals_at f H1.len H2.len hi
  refine ⟨a, b, ha, hb, ?_⟩
  rw [hc]
  have : written pre d2 = ((pre ++ d2).drop (pre.length - 1)).prod.toNat :=
    numel_pos_dims (fun x hx => isIndex_pos hi x (List.mem_of_mem_drop hx))
  rw [this]

/-- Every element is the element at some multi-index, so the statements above determine the whole result. -/
theorem C14_indices_cover (dims : List Int) (hp : ∀ d ∈ dims, 0 < d) (k : Nat) (hk : k < numel dims) :
    ∃ is, IsIndex dims is ∧ flatIndex dims is = k :=
  flatIndex_surj hp k (by rwa [numel_pos_dims hp] at hk)

/-- A `{2,2,2}` tensor 1..8 and a `{2}` tensor 10,20. -/
def exHeap3 : Heap Int := ⟨[⟨[some 1, some 2, some 3, some 4, some 5, some 6, some 7, some 8], true, true⟩,
  ⟨[some 10, some 20], true, true⟩, ⟨[some 1], true, true⟩, ⟨[some 1, some 1, some 1], true, true⟩]⟩
def exT222 : Tensor := ⟨⟨[2, 2, 2], [8, 4, 2]⟩, some 0⟩
def exT2 : Tensor := ⟨⟨[2], [2]⟩, some 1⟩
theorem exT222_holds : Holds exHeap3 exT222 ([2, 2] ++ [2]) [1, 2, 3, 4, 5, 6, 7, 8] := ⟨0, by decide, by decide, rfl, true, rfl⟩
theorem exT2_holds : Holds exHeap3 exT2 [2] [10, 20] := ⟨1, by decide, by decide, rfl, true, rfl⟩

/-- **C14 is false for rank difference 2**: `{2,2,2} + {2}` has element 0 at `(1,1,1)` instead of `8 + 20`, under every schedule. -/
theorem C14_refuted (σ : Sched) : ¬ ∃ t h' out, addTT σ exHeap3 exT222 exT2 = .ok (t, h') ∧
    Fresh exHeap3 h' t ([2, 2] ++ [2]) out ∧
    IsBroadcast (fun x y => x + y) [2, 2] [2] [1, 2, 3, 4, 5, 6, 7, 8] [10, 20] out := by
  rintro ⟨t, h', out, e, F, B⟩
  obtain ⟨t', h'', out', e', F', B'⟩ := C14_exact (fun x y : Int => x + y) σ exHeap3 exT222 exT2 [2, 2] [2] _ _ (by decide)
    exT222_holds exT2_holds
  unfold addTT at e
  rw [e] at e'
  cases e'
  have hout : out = out' := by
    have h1 := F.2.2.2
    have h2 := F'.2.2.2
    rw [h1] at h2
    simp only [List.append_cancel_left_eq, List.cons.injEq, Block.mk.injEq, and_true] at h2
    exact List.map_injective_iff.2 (Option.some_injective _) h2
  subst hout
  obtain ⟨a, b, h1, h2, h3⟩ := B [1, 1, 1] (by simp [IsIndex])
  obtain ⟨a', b', h1', h2', h3'⟩ := B' [1, 1, 1] (by simp [IsIndex])
  have e1 : flatIndex ([2, 2] ++ [2]) [1, 1, 1] = 7 := by decide
  have e2 : flatIndex [2] (List.drop ([2, 2] : List Int).length [1, 1, 1]) = 1 := by decide
  rw [e1] at h1 h3 h3'
  rw [e2] at h2
  simp at h1 h2
  subst h1 h2
  rw [h3] at h3'
  simp at h3'

/-- **C14**, an empty left operand of rank 3 makes the loop write outside the result buffer: `{0,2,3} + {3}`. -/
theorem C14_empty_out_of_bounds :
    addTT (fun _ => 0) exHeap3 ⟨⟨[0, 2, 3], [1, 6, 3]⟩, some 2⟩ ⟨⟨[3], [3]⟩, some 3⟩ = .error (.ub .outOfBounds) := by
  decide

example : Holds exHeap3 exT222 ([2, 2] ++ [2]) [1, 2, 3, 4, 5, 6, 7, 8] ∧ Holds exHeap3 exT2 [2] [10, 20] :=
  ⟨exT222_holds, exT2_holds⟩
example : Holds exHeap exA ([2] ++ [2]) [1, 2, 3, 4] ∧ Holds exHeap exC [2] [8, 9] := ⟨⟨0, exA_holds⟩, ⟨2, exC_holds⟩⟩

/-! ## C15 -/

theorem shapeAt_mk {t : Tensor} {d : List Int} (hs : mkShape d = .ok t.shape) {i : Nat} (hi : i < d.length) :
    t.shapeAt i = .ok d[i] := mkShape_shapeAt hs i hi

theorem broadcast_rejects [Zero R] (f : R → R → R) (σ : Sched) (h : Heap R) (t1 t2 : Tensor) (d1 d2 : List Int)
    (h1 : mkShape d1 = .ok t1.shape) (h2 : mkShape d2 = .ok t2.shape) (hn : ¬ d2 <:+ d1) :
    broadcastOp f σ h t1 t2 = .error .abort := by
  have e1 := mkShape_size h1
  have e2 := mkShape_size h2
  have key : checkSuffix t1 t2 (t1.shape.size - t2.shape.size) = .error .abort := by
    unfold checkSuffix
    by_cases hl : d2.length ≤ d1.length
    · rw [assertC_true (by rw [e1, e2]; omega), ok_bind]
      have hval : ∀ i < d2.length, (do
          let a ← t2.shapeAt (i : Nat)
          let b ← t1.shapeAt ((i : Nat) + (t1.shape.size - t2.shape.size))
          assertC (a = b)) = assertC (d2[i]? = d1[i + (d1.length - d2.length)]?) := by
        intro i hi
        rw [shapeAt_mk h2 hi, ok_bind]
        have : ((i : Nat) : Int) + (t1.shape.size - t2.shape.size) = ((i + (d1.length - d2.length) : Nat) : Int) := by
          rw [e1, e2]; omega
        rw [this, shapeAt_mk h1 (by omega), ok_bind]
        rw [List.getElem?_eq_getElem hi, List.getElem?_eq_getElem (by omega)]
        unfold assertC
        simp only [Option.some.injEq]
      apply forM_error
      · intro i hi
        rw [e2] at hi
        have hi : i < d2.length := by simpa using List.mem_range.1 hi
        rw [hval i hi]
        by_cases hc : d2[i]? = d1[i + (d1.length - d2.length)]?
        · left; exact assertC_true hc
        · right; exact assertC_false hc
      · by_contra hc
        apply hn
        rw [List.suffix_iff_eq_drop]
        apply List.ext_getElem?
        intro i
        rw [List.getElem?_drop]
        by_cases hi : i < d2.length
        · by_contra hne
          apply hc
          refine ⟨i, by rw [e2]; simpa using hi, ?_⟩
          rw [hval i hi, assertC_false (by rw [Nat.add_comm]; exact hne)]
          simp
        · rw [List.getElem?_eq_none (by omega), List.getElem?_eq_none (by omega)]
    · rw [assertC_false (by rw [e1, e2]; omega), error_bind]
  simp [broadcastOp, key]

/-- **C15**, `+ - * /`: if `t2`'s dimensions are not a suffix of `t1`'s, the call aborts, whatever the data (which is not
touched: the statement does not even require the tensors to have data). -/
theorem C15_arith_rejects [Zero R] [Add R] [Sub R] [Mul R] [Div R] (σ : Sched) (h : Heap R) (t1 t2 : Tensor) (d1 d2 : List Int)
    (h1 : mkShape d1 = .ok t1.shape) (h2 : mkShape d2 = .ok t2.shape) (hn : ¬ d2 <:+ d1) :
    addTT σ h t1 t2 = .error .abort ∧ subTT σ h t1 t2 = .error .abort ∧ mulTT σ h t1 t2 = .error .abort ∧
      divTT σ h t1 t2 = .error .abort :=
  ⟨broadcast_rejects _ σ h t1 t2 d1 d2 h1 h2 hn, broadcast_rejects _ σ h t1 t2 d1 d2 h1 h2 hn,
   broadcast_rejects _ σ h t1 t2 d1 d2 h1 h2 hn, broadcast_rejects _ σ h t1 t2 d1 d2 h1 h2 hn⟩

/-- **C15**, `^` aborts when the shapes differ. -/
theorem C15_pow_rejects [Zero R] [CMath R] (σ : Sched) (h : Heap R) (t1 t2 : Tensor) (d1 d2 : List Int)
    (h1 : mkShape d1 = .ok t1.shape) (h2 : mkShape d2 = .ok t2.shape) (hn : d1 ≠ d2) :
    powTT σ h t1 t2 = .error .abort := by
  have e1 := mkShape_size h1
  have e2 := mkShape_size h2
  unfold powTT
  by_cases hl : d1.length = d2.length
  · rw [assertC_true (by rw [e1, e2, hl]), ok_bind]
    have hval : ∀ i < d1.length, (do
        let a ← t1.shapeAt (i : Nat)
        let b ← t2.shapeAt (i : Nat)
        assertC (a = b)) = assertC (d1[i]? = d2[i]?) := by
      intro i hi
      rw [shapeAt_mk h1 hi, ok_bind, shapeAt_mk h2 (by omega), ok_bind]
      rw [List.getElem?_eq_getElem hi, List.getElem?_eq_getElem (by omega)]
      unfold assertC
      simp only [Option.some.injEq]
    rw [forM_error (e := .abort), error_bind]
    · intro i hi
      rw [e1] at hi
      have hi : i < d1.length := by simpa using List.mem_range.1 hi
      rw [hval i hi]
      by_cases hc : d1[i]? = d2[i]?
      · left; exact assertC_true hc
      · right; exact assertC_false hc
    · by_contra hc
      apply hn
      apply List.ext_getElem?
      intro i
      by_cases hi : i < d1.length
      · by_contra hne
        exact hc ⟨i, by rw [e1]; simpa using hi, by rw [hval i hi, assertC_false hne]; simp⟩
      · rw [List.getElem?_eq_none (by omega), List.getElem?_eq_none (by omega)]
  · rw [assertC_false (by rw [e1, e2]; omega), error_bind]

/-- **C15 (partial)**, `==` and `equal`: tensors of different *rank* are rejected. Missing: equal ranks with different
dimensions, see `C15_equal_refuted`. -/
theorem C15_equal_rank_partial [Zero R] [One R] [BEq R] [Sub R] [LT R] [LE R] [DecidableRel (α := R) (· < ·)]
    [DecidableRel (α := R) (· ≤ ·)] [CMath R] (σ : Sched) (h : Heap R) (t1 t2 : Tensor) (d1 d2 : List Int) (eps : R)
    (h1 : mkShape d1 = .ok t1.shape) (h2 : mkShape d2 = .ok t2.shape) (hn : d1.length ≠ d2.length) :
    eqTT σ h t1 t2 = .error .abort ∧ equalTT σ h t1 t2 eps = .error .abort := by
  have key : checkEqualShapes t1 t2 = .error .abort := by
    unfold checkEqualShapes
    rw [assertC_false (by rw [mkShape_size h1, mkShape_size h2]; omega), error_bind]
  refine ⟨by simp [eqTT, key], ?_⟩
  unfold equalTT
  by_cases he : 0 ≤ eps
  · rw [assertC_true he, ok_bind, key, error_bind]
  · rw [assertC_false he, error_bind]

theorem checkEqualShapes_rank {t1 t2 : Tensor} {d1 d2 : List Int} (h1 : mkShape d1 = .ok t1.shape)
    (h2 : mkShape d2 = .ok t2.shape) (hl : d1.length = d2.length) : checkEqualShapes t1 t2 = .ok () := by
  unfold checkEqualShapes
  rw [assertC_true (by rw [mkShape_size h1, mkShape_size h2, hl]), ok_bind]
  apply forM_ok
  intro i hi
  rw [mkShape_size h1] at hi
  have hi : i < d1.length := by simpa using List.mem_range.1 hi
  rw [shapeAt_mk h1 hi, ok_bind, ok_bind]
  exact assertC_true rfl

/-- **C15, what `==` does with equal ranks**: whatever the dimensions, if `t2` has at least as many elements as `t1` the call
succeeds and compares the buffers element by element. -/
theorem C15_equal_accepts_mismatch [Zero R] [One R] [BEq R] (σ : Sched) (h : Heap R) (t1 t2 : Tensor) (d1 d2 : List Int)
    (v1 v2 : List R) (H1 : Holds h t1 d1 v1) (H2 : Holds h t2 d2 v2) (hl : d1.length = d2.length) (hn : numel d1 ≤ numel d2) :
    ∃ t h', eqTT σ h t1 t2 = .ok (t, h') ∧ Fresh h h' t d1 (List.zipWith (fun x y => if x == y then 1 else 0) v1 v2) := by
  obtain ⟨t, h', e, F⟩ := zipLoop_ok (fun x y : R => if x == y then some 1 else none) σ H1 H2 (by rw [H1.len, H2.len]; exact hn)
  refine ⟨t, h', by simp [eqTT, checkEqualShapes_rank H1.mk H2.mk hl, e], ?_⟩
  have : (fun x y : R => (if (x == y) = true then some (1 : R) else none).getD 0) = fun x y => if x == y then 1 else 0 := by
    funext x y; split <;> rfl
  rwa [this] at F

/-- **C15 is false for `==`**: a `{2,2}` and a `{1,2}` tensor have different shapes but are not rejected; the comparison reads
beyond the end of the second. A `{1,2}` and a `{2,2}` tensor are compared without complaint. -/
theorem C15_equal_refuted :
    eqTT (fun _ => 0) exHeap exA ⟨⟨[1, 2], [2, 2]⟩, some 2⟩ = .error (.ub .outOfBounds) ∧
    ∃ t h', eqTT (fun _ => 0) exHeap ⟨⟨[1, 2], [2, 2]⟩, some 2⟩ exA = .ok (t, h') := by
  refine ⟨by decide, ?_⟩
  obtain ⟨t, h', e, -⟩ := C15_equal_accepts_mismatch (fun _ => 0) exHeap ⟨⟨[1, 2], [2, 2]⟩, some 2⟩ exA [1, 2] [2, 2] [8, 9] [1, 2, 3, 4]
    ⟨2, by decide, by decide, rfl, true, rfl⟩ ⟨0, exA_holds⟩ rfl (by decide)
  exact ⟨t, h', e⟩

/-- **C15**, matrix product: aborts when a rank is not 2, the inner dimensions differ or a dimension is 0. -/
theorem C15_matmul_rejects [Zero R] [Add R] [Mul R] (σ : Nat → Sched) (h : Heap R) (t1 t2 out : Tensor) (d1 d2 : List Int)
    (h1 : mkShape d1 = .ok t1.shape) (h2 : mkShape d2 = .ok t2.shape)
    (hn : ¬ ∃ m k n, d1 = [m, k] ∧ d2 = [k, n] ∧ 0 < m ∧ 0 < k ∧ 0 < n) :
    matmul σ h t1 t2 out = .error .abort ∧ matmulOp σ h t1 t2 = .error .abort := by
  have e1 := mkShape_size h1
  have e2 := mkShape_size h2
  have v1 := (mkShape_ok_imp h1).1
  have v2 := (mkShape_ok_imp h2).1
  have key : matmulCheck t1 t2 = .error .abort := by
    unfold matmulCheck
    by_cases hr : d1.length = 2 ∧ d2.length = 2
    · obtain ⟨m, k, rfl⟩ := List.length_eq_two.1 hr.1
      obtain ⟨k', n, rfl⟩ := List.length_eq_two.1 hr.2
      rw [assertC_true (by rw [e1, e2]; simp), ok_bind]
      have s10 : t1.shapeAt 0 = .ok m := shapeAt_mk h1 (i := 0) (by simp)
      have s11 : t1.shapeAt 1 = .ok k := shapeAt_mk h1 (i := 1) (by simp)
      have s20 : t2.shapeAt 0 = .ok k' := shapeAt_mk h2 (i := 0) (by simp)
      have s21 : t2.shapeAt 1 = .ok n := shapeAt_mk h2 (i := 1) (by simp)
      have hk : 0 < k := by simpa using valid_tail v1
      have hn' : 0 < n := by simpa using valid_tail v2
      simp only [s11, s20, ok_bind]
      by_cases hkk : k = k'
      · subst hkk
        rw [assertC_true rfl, ok_bind, s10, ok_bind]
        have hm : ¬ m > 0 := fun hm => hn ⟨m, k, n, rfl, rfl, hm, hk, hn'⟩
        rw [assertC_false hm, error_bind]
      · rw [assertC_false hkk, error_bind]
    · rw [assertC_false (by rw [e1, e2]; intro hc; apply hr; omega), error_bind]
  refine ⟨by simp [matmul, key], ?_⟩
  have : Tensor.mkDefault = .ok ⟨⟨[0], [1]⟩, none⟩ := by decide
  simp [matmulOp, this, matmul, key]

example : mkShape [2, 3] = .ok ⟨[2, 3], [6, 3]⟩ ∧ mkShape [2] = .ok ⟨[2], [2]⟩ ∧ ¬ ([2] : List Int) <:+ [2, 3] := by
  refine ⟨by decide, by decide, ?_⟩
  intro h; have := List.suffix_iff_eq_drop.1 h; simp at this
example : ¬ ∃ m k n : Int, ([2, 3] : List Int) = [m, k] ∧ ([2, 3] : List Int) = [k, n] ∧ 0 < m ∧ 0 < k ∧ 0 < n := by
  rintro ⟨m, k, n, h1, h2, -⟩
  simp at h1 h2; omega

/-! ## C16 -/

theorem map_op [Zero R] (g : R → R) (σ : Sched) {h : Heap R} {t : Tensor} {d : List Int} {v : List R} (H : Holds h t d v) :
    ∃ out h', mapOp (fun x => some (g x)) σ h t = .ok (out, h') ∧ Fresh h h' out d (v.map g) := by
  obtain ⟨t', h', e, F⟩ := mapOp_ok (fun x => some (g x)) σ H
  exact ⟨t', h', e, by simpa using F⟩

/-- **C16**, `t + val`, `t - val`, `t * val`, `t / val`, `t ^ val`. -/
theorem C16_scalar_ops [Zero R] [Add R] [Sub R] [Mul R] [Div R] [CMath R] (σ : Sched) (h : Heap R) (t : Tensor) (d : List Int)
    (v : List R) (val : R) (H : Holds h t d v) :
    (∃ o h', addTS σ h t val = .ok (o, h') ∧ Fresh h h' o d (v.map (fun x => x + val))) ∧
    (∃ o h', subTS σ h t val = .ok (o, h') ∧ Fresh h h' o d (v.map (fun x => x - val))) ∧
    (∃ o h', mulTS σ h t val = .ok (o, h') ∧ Fresh h h' o d (v.map (fun x => x * val))) ∧
    (∃ o h', divTS σ h t val = .ok (o, h') ∧ Fresh h h' o d (v.map (fun x => x / val))) ∧
    (∃ o h', powTS σ h t val = .ok (o, h') ∧ Fresh h h' o d (v.map (fun x => CMath.pow x val))) :=
  ⟨map_op _ σ H, map_op _ σ H, map_op _ σ H, map_op _ σ H, map_op _ σ H⟩

/-- **C16**, `-t`, `exp(t)`, `log(t)`, `sqrt(t)`. -/
theorem C16_unary_ops [Zero R] [Neg R] [CMath R] (σ : Sched) (h : Heap R) (t : Tensor) (d : List Int) (v : List R)
    (H : Holds h t d v) :
    (∃ o h', negT σ h t = .ok (o, h') ∧ Fresh h h' o d (v.map (fun x => -x))) ∧
    (∃ o h', expT σ h t = .ok (o, h') ∧ Fresh h h' o d (v.map CMath.exp)) ∧
    (∃ o h', logT σ h t = .ok (o, h') ∧ Fresh h h' o d (v.map CMath.log)) ∧
    (∃ o h', sqrtT σ h t = .ok (o, h') ∧ Fresh h h' o d (v.map CMath.sqrt)) :=
  ⟨map_op _ σ H, map_op _ σ H, map_op _ σ H, map_op _ σ H⟩

example : ∃ t h', mulTS (fun s => 3 * s + 1) exHeap exA 10 = .ok (t, h') ∧ t.get h' 2 = .ok 30 := by
  obtain ⟨t, h', e, F⟩ := (C16_scalar_ops (fun s => 3 * s + 1) exHeap exA _ _ 10 ⟨0, exA_holds⟩).2.2.1
  exact ⟨t, h', e, F.holds.read rfl⟩

/-! ## C17 -/

/-- **C17**, `t1 == t2` and `t == val`. -/
theorem C17_eq [Zero R] [One R] [BEq R] (σ : Sched) (h : Heap R) (t1 t2 : Tensor) (d : List Int) (v1 v2 : List R) (val : R)
    (H1 : Holds h t1 d v1) (H2 : Holds h t2 d v2) :
    (∃ t h', eqTT σ h t1 t2 = .ok (t, h') ∧ Fresh h h' t d (List.zipWith (fun x y => if x == y then 1 else 0) v1 v2)) ∧
    (∃ t h', eqTS σ h t1 val = .ok (t, h') ∧ Fresh h h' t d (v1.map (fun x => if x == val then 1 else 0))) := by
  refine ⟨C15_equal_accepts_mismatch σ h t1 t2 d d v1 v2 H1 H2 rfl (le_refl _), ?_⟩
  obtain ⟨t, h', e, F⟩ := mapOp_ok (fun x : R => if x == val then some 1 else none) σ H1
  refine ⟨t, h', e, ?_⟩
  have : (fun x : R => (if (x == val) = true then some (1 : R) else none).getD 0) = fun x => if x == val then 1 else 0 := by
    funext x; split <;> rfl
  rwa [this] at F

/-- **C17**, `equal(t1, t2, eps)` and `equal(t, val, eps)` for `eps >= 0`. -/
theorem C17_equal [Zero R] [One R] [Sub R] [LT R] [LE R] [DecidableRel (α := R) (· < ·)]
    [DecidableRel (α := R) (· ≤ ·)] [CMath R] (σ : Sched) (h : Heap R) (t1 t2 : Tensor) (d : List Int) (v1 v2 : List R)
    (val eps : R) (heps : 0 ≤ eps) (H1 : Holds h t1 d v1) (H2 : Holds h t2 d v2) :
    (∃ t h', equalTT σ h t1 t2 eps = .ok (t, h') ∧
      Fresh h h' t d (List.zipWith (fun x y => if CMath.abs (x - y) < eps then 1 else 0) v1 v2)) ∧
    (∃ t h', equalTS σ h t1 val eps = .ok (t, h') ∧
      Fresh h h' t d (v1.map (fun x => if CMath.abs (x - val) < eps then 1 else 0))) := by
  constructor
  · obtain ⟨t, h', e, F⟩ := zipLoop_ok (fun x y : R => if CMath.abs (x - y) < eps then some 1 else none) σ H1 H2
      (by rw [H1.len, H2.len])
    refine ⟨t, h', ?_, ?_⟩
    · unfold equalTT
      rw [assertC_true heps, ok_bind, checkEqualShapes_rank H1.mk H2.mk rfl, ok_bind, e]
    · have : (fun x y : R => (if CMath.abs (x - y) < eps then some (1 : R) else none).getD 0) =
          fun x y => if CMath.abs (x - y) < eps then 1 else 0 := by
        funext x y; split <;> rfl
      rwa [this] at F
  · obtain ⟨t, h', e, F⟩ := mapOp_ok (fun x : R => if CMath.abs (x - val) < eps then some 1 else none) σ H1
    refine ⟨t, h', ?_, ?_⟩
    · unfold equalTS
      rw [assertC_true heps, ok_bind, e]
    · have : (fun x : R => (if CMath.abs (x - val) < eps then some (1 : R) else none).getD 0) =
          fun x => if CMath.abs (x - val) < eps then 1 else 0 := by
        funext x; split <;> rfl
      rwa [this] at F

/-- **C17**, a negative (or unordered) `eps` aborts. -/
theorem C17_negative_eps [Zero R] [One R] [Sub R] [LT R] [LE R] [DecidableRel (α := R) (· < ·)]
    [DecidableRel (α := R) (· ≤ ·)] [CMath R] (σ : Sched) (h : Heap R) (t1 t2 : Tensor) (val eps : R) (heps : ¬ 0 ≤ eps) :
    equalTT σ h t1 t2 eps = .error .abort ∧ equalTS σ h t1 val eps = .error .abort := by
  unfold equalTT equalTS
  rw [assertC_false heps]
  exact ⟨rfl, rfl⟩

example : ∃ t h', eqTS (fun _ => 5) exHeap exA 3 = .ok (t, h') ∧ t.get h' 2 = .ok 1 ∧ t.get h' 1 = .ok 0 := by
  obtain ⟨t, h', e, F⟩ := (C17_eq (fun _ => 5) exHeap exA exA _ _ _ 3 ⟨0, exA_holds⟩ ⟨0, exA_holds⟩).2
  exact ⟨t, h', e, F.holds.read rfl, F.holds.read rfl⟩

end Nnet.Tensor
