import Verif.Tensor.ShapeLemmas
/-!
# C01, C02, C03: `TensorShape`
-/
namespace Nnet.Tensor

/-- **C01.** Whatever dimension list is accepted, `size()` is its length, `shape(i)` its `i`-th entry and `chunk(i)` the
product of the entries from `i` on, except that `chunk(0)` is 1 when that product is 0. -/
theorem C01_chunk_table (dims : List Int) (s : TensorShape) (h : mkShape dims = .ok s) :
    s.size = dims.length ∧
    ∀ (i : Nat) (hi : i < dims.length),
      s.shapeAt i = .ok dims[i] ∧
      s.chunkAt i = .ok (if i = 0 ∧ (dims.drop i).prod = 0 then 1 else (dims.drop i).prod) := by
  refine ⟨mkShape_size h, fun i hi => ⟨mkShape_shapeAt h i hi, ?_⟩⟩
  rw [mkShape_chunkAt h i hi]
  congr 1
  by_cases h0 : i = 0
  · subst h0; simp
  · simp [h0]

/-- **C01**, access outside `0 .. size()-1` is undefined behaviour (unchecked `std::vector` indexing). -/
theorem C01_out_of_range (dims : List Int) (s : TensorShape) (h : mkShape dims = .ok s) (i : Int)
    (hi : i < 0 ∨ s.size ≤ i) :
    s.shapeAt i = .error (.ub .vectorIndex) ∧ s.chunkAt i = .error (.ub .vectorIndex) := by
  have hs := mkShape_shape h
  have hl : s.chunk.length = dims.length := by
    rw [(mkShape_ok_imp h).2]; simp only [shapeOf]; split <;> simp [sufProds_length]
  rcases hi with hi | hi
  · have : ¬ 0 ≤ i := by omega
    simp [TensorShape.shapeAt, TensorShape.chunkAt, vecAt, this]
  · rw [mkShape_size h] at hi
    have h0 : 0 ≤ i := by omega
    have h1 : dims.length ≤ i.toNat := by omega
    have h2 : dims[i.toNat]? = none := List.getElem?_eq_none h1
    have h3 : s.chunk[i.toNat]? = none := List.getElem?_eq_none (hl ▸ h1)
    simp [TensorShape.shapeAt, TensorShape.chunkAt, vecAt, h0, hs, h2, h3]

example : ∃ s, mkShape [2, 3, 4] = .ok s ∧ s.chunkAt 0 = .ok 24 ∧ s.chunkAt 1 = .ok 12 ∧ s.chunkAt 2 = .ok 4 :=
  ⟨⟨[2, 3, 4], [24, 12, 4]⟩, by decide, by decide, by decide, by decide⟩
example : ∃ s, mkShape [0, 3] = .ok s ∧ s.chunkAt 0 = .ok 1 ∧ s.chunkAt 1 = .ok 3 :=
  ⟨⟨[0, 3], [1, 3]⟩, by decide, by decide, by decide⟩

/-- **C02**, abort exactly on invalid dimension lists. -/
theorem C02_abort_iff (dims : List Int) : mkShape dims = .error .abort ↔ ¬ ValidDims dims := by
  constructor
  · intro h hv
    rcases suffixChunks_cases hv.nonneg with hs | hs
    · have hc := checkDims_ok hv
      obtain ⟨d, ds, rfl, h0, h1⟩ := hv
      have h0 : vecAt (sufProds (d :: ds)) 0 = .ok (d :: ds).prod := by simp [vecAt, sufProds]
      simp [mkShape, hc, hs, h0] at h
    · have hc := checkDims_ok hv
      obtain ⟨d, ds, rfl, h0, h1⟩ := hv
      simp [mkShape, hc, hs] at h
  · exact mkShape_abort

/-- **C02**, for valid lists of `int`s: undefined behaviour (signed overflow) exactly when some product of trailing dimensions
does not fit in `int`. -/
theorem C02_overflow_iff (dims : List Int) (hi : ∀ x ∈ dims, IsInt x) (hv : ValidDims dims) :
    mkShape dims = .error (.ub .signedOverflow) ↔ ∃ i, intMax < (dims.drop i).prod := by
  constructor
  · intro h
    by_contra hf
    have hf : FitsInt dims := fun i => by
      by_contra hlt; exact hf ⟨i, by omega⟩
    rw [mkShape_ok hv hf] at h; cases h
  · rintro ⟨i, hlt⟩
    exact mkShape_overflow hv hi (fun hf => by have := hf i; omega)

/-- **C02**, otherwise the shape is constructed; there is no other outcome, and (C01) a constructed shape reports the true
products. -/
theorem C02_accepts_iff (dims : List Int) (hi : ∀ x ∈ dims, IsInt x) :
    (∃ s, mkShape dims = .ok s) ↔ ValidDims dims ∧ ∀ i, (dims.drop i).prod ≤ intMax := by
  constructor
  · rintro ⟨s, h⟩
    have hv := (mkShape_ok_imp h).1
    refine ⟨hv, ?_⟩
    by_contra hf
    rw [mkShape_overflow hv hi hf] at h; cases h
  · rintro ⟨hv, hf⟩; exact ⟨_, mkShape_ok hv hf⟩

example : mkShape [-1] = .error .abort ∧ mkShape [] = .error .abort ∧ mkShape [3, 0] = .error .abort ∧
    mkShape [65536, 65536] = .error (.ub .signedOverflow) ∧ (∃ s, mkShape [46340, 46340] = .ok s) :=
  ⟨by decide, by decide, by decide, by decide, ⟨⟨[46340, 46340], [2147395600, 46340]⟩, by decide⟩⟩

/-- **C03.** Copying or assigning any constructed shape gives a shape with the same size, dimensions and chunks. -/
theorem C03_copy (dims : List Int) (s old : TensorShape) (h : mkShape dims = .ok s) :
    ∃ c a, copyShape s = .ok c ∧ assignShape old s = .ok a ∧
      c.size = s.size ∧ a.size = s.size ∧
      ∀ i : Int, c.shapeAt i = s.shapeAt i ∧ a.shapeAt i = s.shapeAt i ∧
        c.chunkAt i = s.chunkAt i ∧ a.chunkAt i = s.chunkAt i :=
  ⟨s, s, copyShape_mk h, assignShape_mk h old, rfl, rfl, fun _ => ⟨rfl, rfl, rfl, rfl⟩⟩

/-- **C03**, a default-constructed shape can be neither copied nor assigned from. -/
theorem C03_default_aborts (old : TensorShape) :
    copyShape TensorShape.default = .error .abort ∧ assignShape old TensorShape.default = .error .abort := by
  constructor
  · decide
  · have : copyShape TensorShape.default = .error .abort := by decide
    simp [assignShape, this]

example : ∃ s, mkShape [2, 3] = .ok s ∧ copyShape s = .ok s := ⟨⟨[2, 3], [6, 3]⟩, by decide, by decide⟩

end Nnet.Tensor
