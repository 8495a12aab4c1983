import Verif.Tensor.Spec
import Verif.CoreLemmas
namespace Nnet.Tensor

@[simp] theorem assertC_true {p : Prop} [Decidable p] (h : p) : assertC p = .ok () := by simp [assertC, h]
@[simp] theorem assertC_false {p : Prop} [Decidable p] (h : ¬p) : assertC p = .error .abort := by simp [assertC, h]

theorem assertC_eq_ok {p : Prop} [Decidable p] {u : Unit} : assertC p = .ok u ↔ p := by
  unfold assertC; split <;> simp_all

theorem forM_assert_ok {l : List Int} (h : ∀ x ∈ l, 0 < x) : l.forM (fun d => assertC (d > 0)) = .ok () :=
  forM_ok (fun x hx => assertC_true (h x hx))

theorem forM_assert_abort {l : List Int} (h : ¬ ∀ x ∈ l, 0 < x) :
    l.forM (fun d => assertC (d > 0)) = .error .abort := by
  apply forM_error
  · intro x _
    by_cases hx : x > 0
    · left; exact assertC_true hx
    · right; exact assertC_false hx
  · by_contra hc
    apply h
    intro x hx
    by_contra hn
    exact hc ⟨x, hx, by simp [assertC_false hn]⟩

theorem prod_pos' {l : List Int} (h : ∀ x ∈ l, 0 < x) : 0 < l.prod := by
  induction l with
  | nil => simp
  | cons a l ih =>
    simp only [List.mem_cons, forall_eq_or_imp] at h
    simp only [List.prod_cons]
    exact Int.mul_pos h.1 (ih h.2)

theorem prod_nonneg' {l : List Int} (h : ∀ x ∈ l, 0 ≤ x) : 0 ≤ l.prod := by
  induction l with
  | nil => simp
  | cons a l ih =>
    simp only [List.mem_cons, forall_eq_or_imp] at h
    simp only [List.prod_cons]
    exact Int.mul_nonneg h.1 (ih h.2)

/-- All suffix products. -/
def sufProds : List Int → List Int
  | [] => []
  | d :: ds => (d :: ds).prod :: sufProds ds

theorem sufProds_length (l : List Int) : (sufProds l).length = l.length := by
  induction l with
  | nil => rfl
  | cons a l ih => simp [sufProds, ih]

theorem sufProds_getElem? (l : List Int) (i : Nat) (hi : i < l.length) :
    (sufProds l)[i]? = some (l.drop i).prod := by
  induction l generalizing i with
  | nil => simp at hi
  | cons a l ih =>
    cases i with
    | zero => simp [sufProds]
    | succ i => simp [sufProds] at *; exact ih i hi

theorem fits_tail {d : Int} {ds : List Int} (h : FitsInt (d :: ds)) : FitsInt ds := by
  intro i; have := h (i+1); simpa using this

theorem suffixChunks_ok {l : List Int} (hn : ∀ x ∈ l, 0 ≤ x) (hf : FitsInt l) : suffixChunks l = .ok (sufProds l) := by
  induction l with
  | nil => rfl
  | cons d ds ih =>
    cases ds with
    | nil => simp [suffixChunks, sufProds]
    | cons d' ds =>
      have hp : 0 ≤ d * (d' :: ds).prod := by
        have := prod_nonneg' hn; simpa using this
      have hle : d * (d' :: ds).prod ≤ intMax := by have := hf 0; simpa using this
      have hi : IsInt (d * (d' :: ds).prod) := ⟨le_trans (by decide) hp, hle⟩
      have ih' := ih (fun x hx => hn x (List.mem_cons_of_mem _ hx)) (fits_tail hf)
      simp only [suffixChunks, ih', ok_bind]
      have h0 : vecAt (sufProds (d' :: ds)) 0 = .ok (d' :: ds).prod := by simp [vecAt, sufProds]
      rw [h0, ok_bind]
      simp only [cint, hi, if_true, ok_bind, hp, assertC_true, ge_iff_le, pure_eq_ok]
      simp [sufProds]

theorem suffixChunks_overflow {l : List Int} (hn : ∀ x ∈ l, 0 ≤ x) (hi : ∀ x ∈ l, IsInt x) (hf : ¬ FitsInt l) :
    suffixChunks l = .error (.ub .signedOverflow) := by
  induction l with
  | nil => exfalso; apply hf; intro i; simp [intMax]
  | cons d ds ih =>
    cases ds with
    | nil =>
      exfalso; apply hf; intro i
      cases i with
      | zero => simpa using (hi d (by simp)).2
      | succ i => simp [intMax]
    | cons d' ds =>
      by_cases ht : FitsInt (d' :: ds)
      · have h1 := suffixChunks_ok (fun x hx => hn x (List.mem_cons_of_mem _ hx)) ht
        simp only [suffixChunks, h1, ok_bind]
        have h0 : vecAt (sufProds (d' :: ds)) 0 = .ok (d' :: ds).prod := by simp [vecAt, sufProds]
        rw [h0, ok_bind]
        have : ¬ d * (d' :: ds).prod ≤ intMax := by
          intro hle; apply hf; intro i
          cases i with
          | zero => simpa using hle
          | succ i => simpa using ht i
        have : ¬ IsInt (d * (d' :: ds).prod) := fun h => this h.2
        simp only [cint, this, if_false, error_bind]
      · have := ih (fun x hx => hn x (List.mem_cons_of_mem _ hx)) (fun x hx => hi x (List.mem_cons_of_mem _ hx)) ht
        simp [suffixChunks, this]

/-- The shape object the constructor is meant to build. -/
def shapeOf (dims : List Int) : TensorShape :=
  ⟨dims, if dims.prod = 0 then (sufProds dims).set 0 1 else sufProds dims⟩

theorem ValidDims.nonneg {dims : List Int} (h : ValidDims dims) : ∀ x ∈ dims, 0 ≤ x := by
  obtain ⟨d, ds, rfl, h0, h1⟩ := h
  intro x hx
  rcases List.mem_cons.1 hx with rfl | hx
  · exact h0
  · exact (h1 x hx).le

theorem checkDims_ok {dims : List Int} (h : ValidDims dims) : checkDims dims = .ok () := by
  obtain ⟨d, ds, rfl, h0, h1⟩ := h
  simp [checkDims, h0, forM_assert_ok h1]

theorem mkShape_ok {dims : List Int} (h : ValidDims dims) (hf : FitsInt dims) : mkShape dims = .ok (shapeOf dims) := by
  have hc := checkDims_ok h
  have hs := suffixChunks_ok h.nonneg hf
  obtain ⟨d, ds, rfl, h0, h1⟩ := h
  have h0 : vecAt (sufProds (d :: ds)) 0 = .ok (d :: ds).prod := by simp [vecAt, sufProds]
  simp only [mkShape, hc, hs, h0, shapeOf, ok_bind, pure_eq_ok, List.length_cons, gt_iff_lt, Nat.zero_lt_succ, assertC_true]

theorem mkShape_abort {dims : List Int} (h : ¬ ValidDims dims) : mkShape dims = .error .abort := by
  cases dims with
  | nil => simp [mkShape]
  | cons d ds =>
    by_cases h0 : 0 ≤ d
    · have : ¬ ∀ x ∈ ds, 0 < x := fun h1 => h ⟨d, ds, rfl, h0, h1⟩
      simp [mkShape, checkDims, h0, forM_assert_abort this]
    · simp [mkShape, checkDims, h0]

theorem mkShape_overflow {dims : List Int} (h : ValidDims dims) (hi : ∀ x ∈ dims, IsInt x) (hf : ¬ FitsInt dims) :
    mkShape dims = .error (.ub .signedOverflow) := by
  have hc := checkDims_ok h
  have hs := suffixChunks_overflow h.nonneg hi hf
  obtain ⟨d, ds, rfl, h0, h1⟩ := h
  simp [mkShape, hc, hs]

/-- The chunk computation never reports anything but overflow once the dimensions are valid, even when the dimensions
themselves are not `int`s. -/
theorem suffixChunks_cases {l : List Int} (hn : ∀ x ∈ l, 0 ≤ x) :
    suffixChunks l = .ok (sufProds l) ∨ suffixChunks l = .error (.ub .signedOverflow) := by
  induction l with
  | nil => left; rfl
  | cons d ds ih =>
    cases ds with
    | nil => left; simp [suffixChunks, sufProds]
    | cons d' ds =>
      rcases ih (fun x hx => hn x (List.mem_cons_of_mem _ hx)) with h | h
      · have h0 : vecAt (sufProds (d' :: ds)) 0 = .ok (d' :: ds).prod := by simp [vecAt, sufProds]
        have hp : 0 ≤ d * (d' :: ds).prod := by
          have := prod_nonneg' hn; simpa using this
        by_cases hI : IsInt (d * (d' :: ds).prod)
        · left; simp only [suffixChunks, h, ok_bind, h0, cint, hI, if_true, hp, assertC_true, ge_iff_le, pure_eq_ok]
          simp [sufProds]
        · right; simp only [suffixChunks, h, ok_bind, h0, cint, hI, if_false, error_bind]
      · right; simp [suffixChunks, h]

theorem mkShape_ok_imp {dims : List Int} {s : TensorShape} (h : mkShape dims = .ok s) :
    ValidDims dims ∧ s = shapeOf dims := by
  by_cases hv : ValidDims dims
  · refine ⟨hv, ?_⟩
    have hc := checkDims_ok hv
    rcases suffixChunks_cases hv.nonneg with hs | hs
    · obtain ⟨d, ds, rfl, h0, h1⟩ := hv
      have h0 : vecAt (sufProds (d :: ds)) 0 = .ok (d :: ds).prod := by simp [vecAt, sufProds]
      simp only [mkShape, hc, hs, h0, ok_bind, pure_eq_ok, List.length_cons, gt_iff_lt, Nat.zero_lt_succ, assertC_true,
        Except.ok.injEq] at h
      rw [← h]; rfl
    · obtain ⟨d, ds, rfl, h0, h1⟩ := hv
      simp [mkShape, hc, hs] at h
  · simp [mkShape_abort hv] at h

/-- The shape copied by the copy constructor is the shape itself. -/
theorem mkShape_shape {dims : List Int} {s : TensorShape} (h : mkShape dims = .ok s) : s.shape = dims := by
  rw [(mkShape_ok_imp h).2]; rfl

theorem copyShape_mk {dims : List Int} {s : TensorShape} (h : mkShape dims = .ok s) : copyShape s = .ok s := by
  unfold copyShape; rw [mkShape_shape h, h]

theorem assignShape_mk {dims : List Int} {s : TensorShape} (h : mkShape dims = .ok s) (old : TensorShape) :
    assignShape old s = .ok s := by
  simp [assignShape, copyShape_mk h]

theorem mkShape_size {dims : List Int} {s : TensorShape} (h : mkShape dims = .ok s) : s.size = dims.length := by
  simp [TensorShape.size, mkShape_shape h]

theorem mkShape_shapeAt {dims : List Int} {s : TensorShape} (h : mkShape dims = .ok s) (i : Nat) (hi : i < dims.length) :
    s.shapeAt i = .ok dims[i] := by
  simp [TensorShape.shapeAt, vecAt, mkShape_shape h, hi]

theorem mkShape_chunkAt {dims : List Int} {s : TensorShape} (h : mkShape dims = .ok s) (i : Nat) (hi : i < dims.length) :
    s.chunkAt i = .ok (if i = 0 ∧ dims.prod = 0 then 1 else (dims.drop i).prod) := by
  rw [(mkShape_ok_imp h).2]
  have hl := sufProds_length dims
  by_cases hp : dims.prod = 0
  · cases i with
    | zero =>
      simp [TensorShape.chunkAt, shapeOf, hp, vecAt, hl, hi]
    | succ i =>
      have := sufProds_getElem? dims (i+1) hi
      have h2 : (0:Int) ≤ ((i:Int)+1) := by omega
      simp [TensorShape.chunkAt, shapeOf, hp, vecAt, h2, this]
  · have := sufProds_getElem? dims i hi
    simp [TensorShape.chunkAt, shapeOf, hp, vecAt, this]

theorem valid_length_pos {dims : List Int} (h : ValidDims dims) : 0 < dims.length := by
  obtain ⟨d, ds, rfl, -⟩ := h; simp

theorem mkShape_chunk0 {dims : List Int} {s : TensorShape} (h : mkShape dims = .ok s) :
    s.chunkAt 0 = .ok (numel dims : Int) := by
  have hv := (mkShape_ok_imp h).1
  have := mkShape_chunkAt h 0 (valid_length_pos hv)
  have hn := prod_nonneg' hv.nonneg
  rw [show (0:Int) = ((0:Nat):Int) from rfl, this]; unfold numel
  by_cases hp : dims.prod = 0
  · simp [hp]
  · simp [hp]; omega

end Nnet.Tensor
