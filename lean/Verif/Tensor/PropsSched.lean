import Verif.Tensor.SchedLemmas
import Verif.Tensor.PropsMatmul
/-!
# C23: results do not depend on the OpenMP schedule
-/
namespace Nnet.Tensor
variable {R : Type}

/-- `op` computes the same under all schedules `S`: if one schedule succeeds, all do with the same result, and no schedule has a
data race. -/
def SchedFree {S α : Type} (op : S → Res α) : Prop :=
  (∀ σ σ' r, op σ = .ok r → op σ' = .ok r) ∧ ∀ σ, op σ ≠ .error (.ub .dataRace)

/-- The buffer of `t` (if any) is a block that exists in `h`. -/
def ExistsIn (h : Heap R) (t : Tensor) : Prop := ∀ p, t.data = some p → p < h.blocks.length

/-- The computation does not end in a data race. -/
def NR {α : Type} (x : Res α) : Prop := x ≠ .error (.ub .dataRace)

theorem NR.bind {α β : Type} {x : Res α} {f : α → Res β} (hx : NR x) (hf : ∀ a, x = .ok a → NR (f a)) : NR (x >>= f) := by
  cases hxe : x with
  | error e =>
    rw [error_bind]
    intro h; cases h; exact hx hxe
  | ok a => rw [ok_bind]; exact hf a hxe

theorem NR.ok {α : Type} (a : α) : NR (.ok a : Res α) := by intro h; cases h
theorem NR.assertC (p : Prop) [Decidable p] : NR (assertC p) := by
  unfold Nnet.assertC; split <;> (intro h; cases h)
theorem NR.vecAt {α : Type} (l : List α) (i : Int) : NR (vecAt l i) := by
  unfold Nnet.vecAt; split
  · split <;> (intro h; cases h)
  · intro h; cases h
theorem NR.shapeAt (t : Tensor) (i : Int) : NR (t.shapeAt i) := NR.vecAt t.shape.shape i
theorem NR.chunkAt (t : Tensor) (i : Int) : NR (t.chunkAt i) := NR.vecAt t.shape.chunk i
theorem NR.cint (n : Int) : NR (cint n) := by unfold Nnet.cint; split <;> (intro h; cases h)
theorem NR.cmod (a b : Int) : NR (cmod a b) := by unfold Nnet.Tensor.cmod; split <;> (intro h; cases h)
theorem NR.forM {α : Type} {l : List α} {f : α → Res Unit} (hf : ∀ a, NR (f a)) : NR (l.forM f) := by
  induction l with
  | nil => exact NR.ok _
  | cons a l ih => rw [forM_cons']; exact (hf a).bind (fun _ _ => ih)
theorem NR.mapM {α β : Type} {l : List α} {f : α → Res β} (hf : ∀ a, NR (f a)) : NR (l.mapM f) := by
  induction l with
  | nil => exact NR.ok _
  | cons a l ih =>
    rw [mapM_cons']
    exact (hf a).bind (fun _ _ => ih.bind (fun _ _ => NR.ok _))
theorem NR.suffixChunks (l : List Int) : NR (suffixChunks l) := by
  induction l with
  | nil => exact NR.ok _
  | cons a l ih =>
    cases l with
    | nil => exact NR.ok _
    | cons b l =>
      unfold Nnet.Tensor.suffixChunks
      exact ih.bind fun _ _ => (NR.vecAt _ _).bind fun _ _ => (NR.cint _).bind fun _ _ => (NR.assertC _).bind fun _ _ => NR.ok _
theorem NR.mkShape (d : List Int) : NR (mkShape d) := by
  unfold Nnet.Tensor.mkShape
  refine (NR.assertC _).bind fun _ _ => NR.bind ?_ fun _ _ => (NR.suffixChunks _).bind fun _ _ => (NR.vecAt _ _).bind fun _ _ => NR.ok _
  cases d with
  | nil => exact NR.ok _
  | cons a l =>
    unfold checkDims
    exact (NR.assertC _).bind fun _ _ => NR.forM fun _ => NR.assertC _
theorem NR.ofShape [Zero R] (h : Heap R) (s : TensorShape) : NR (Tensor.ofShape h s) := by
  unfold Tensor.ofShape
  exact (NR.mkShape _).bind fun _ _ => (NR.vecAt _ _).bind fun _ _ => NR.ok _
theorem NR.access (h : Heap R) (p : Ptr) (i : Int) : NR (h.access p i) := by
  intro hc
  have := access_err hc
  simp [IsAccessError] at this
theorem NR.read (h : Heap R) (p : Ptr) (i : Int) : NR (h.read p i) := by
  intro hc
  have := read_err hc
  simp [IsAccessError] at this
theorem NR.copyLoop (dst src : Ptr) (n i : Nat) (h : Heap R) : NR (copyLoop dst src n i h) := by
  induction n generalizing i h with
  | zero => exact NR.ok _
  | succ n ih =>
    unfold Nnet.Tensor.copyLoop
    exact (NR.read _ _ _).bind fun _ _ => ((NR.access _ _ _).bind fun _ _ => NR.ok _).bind fun _ _ => ih _ _
theorem NR.copyCtor [Zero R] (h : Heap R) (t : Tensor) : NR (Tensor.copyCtor h t) := by
  unfold Tensor.copyCtor
  exact (NR.mkShape _).bind fun _ _ => (NR.vecAt _ _).bind fun _ _ => (NR.copyLoop _ _ _ _ _).bind fun _ _ => NR.ok _
theorem NR.cell2 (t : Tensor) (a b c : Int) : NR (t.cell2 a b c) := by
  unfold Tensor.cell2
  exact (NR.cint _).bind fun _ _ => (NR.cint _).bind fun _ _ => NR.ok _

theorem SchedFree.const {S α : Type} {x : Res α} (h : NR x) : SchedFree (fun _ : S => x) := ⟨fun _ _ _ h => h, fun _ => h⟩

theorem SchedFree.bind {S α β : Type} {op : S → Res α} {f : S → α → Res β} (h1 : SchedFree op)
    (h2 : ∀ σ a, op σ = .ok a → SchedFree (fun σ' => f σ' a)) : SchedFree (fun σ => op σ >>= f σ) := by
  constructor
  · intro σ σ' r hr
    cases ho : op σ with
    | error e => simp [ho] at hr
    | ok a =>
      simp only [ho, ok_bind] at hr
      simp only [h1.1 σ σ' a ho, ok_bind]
      exact (h2 σ a ho).1 σ σ' r hr
  · intro σ hr
    cases ho : op σ with
    | error e =>
      simp only [ho, error_bind] at hr
      cases hr; exact h1.2 σ ho
    | ok a =>
      simp only [ho, ok_bind] at hr
      exact (h2 σ a ho).2 σ hr

/-- A loop whose iterations store to different elements of block `q` and read no element of block `q`. -/
theorem parFor_free {h : Heap R} {n : Int} {body : Int → Res (Iter R)} (q : Ptr) (tgt : Int → Int)
    (hinj : ∀ i j, tgt i = tgt j → i = j)
    (hb : ∀ i it, body i = .ok it → it.target = ⟨q, tgt i⟩ ∧ ∀ c ∈ it.reads, c.ptr ≠ q)
    (hnr : ∀ i, NR (body i)) : SchedFree (fun σ => parFor σ h n body) := by
  unfold parFor
  refine SchedFree.bind (SchedFree.const (NR.mapM (fun i => hnr _))) ?_
  intro _ its hits
  have hrf : RaceFree its := by
    obtain ⟨hl, hg⟩ := mapM_eq_ok hits
    unfold RaceFree
    rw [List.pairwise_iff_getElem]
    intro i j hi hj hij
    have hbi := hg i (by omega) hi
    have hbj := hg j (by omega) hj
    simp only [List.getElem_range] at hbi hbj
    obtain ⟨a1, a2⟩ := hb _ _ hbi
    obtain ⟨b1, b2⟩ := hb _ _ hbj
    refine ⟨?_, ?_, ?_⟩
    · rw [a1, b1]; intro he; simp at he; have := hinj _ _ he; omega
    · intro hc; exact b2 _ hc (by rw [a1])
    · intro hc; exact a2 _ hc (by rw [b1])
  exact ⟨fun σ σ' r hr => runPar_sched hrf hr σ', fun σ hr => by
    have := runPar_err hrf hr
    simp [IsAccessError] at this⟩


/-! ## C23 -/

/-- **C23**, any loop: if no iteration writes an element that another one reads or writes, then under every interleaving the loop
ends in exactly the memory of sequential execution (and fails iff sequential execution fails), without a data race. -/
theorem C23_interleavings (its : List (Iter R)) (h : Heap R)
    (hrf : its.Pairwise (fun a b => a.target ≠ b.target ∧ a.target ∉ b.reads ∧ b.target ∉ a.reads)) :
    (∀ σ h', runPar σ h its = .ok h' ↔ runSeq h its = .ok h') ∧ ∀ σ, runPar σ h its ≠ .error (.ub .dataRace) :=
  ⟨fun _ h' => runPar_iff hrf h h', fun σ hr => by
    have := runPar_err (σ := σ) hrf hr
    simp [IsAccessError] at this⟩

theorem existsIn_ne {h : Heap R} {t : Tensor} (hv : ExistsIn h t) : t.data ≠ some h.blocks.length := by
  intro he; have := hv _ he; omega

theorem ofShape_data [Zero R] {h h' : Heap R} {s : TensorShape} {out : Tensor} (he : Tensor.ofShape h s = .ok (out, h')) :
    out.data = some h.blocks.length := by
  unfold Tensor.ofShape at he
  cases h1 : copyShape s with
  | error e => simp [h1] at he
  | ok s' =>
    cases h2 : s'.chunkAt 0 with
    | error e => simp [h1, h2] at he
    | ok n =>
      simp [h1, h2, Heap.alloc] at he
      rw [← he.1]

theorem checkSuffix_nr (t1 t2 : Tensor) (o : Int) : NR (checkSuffix t1 t2 o) := by
  unfold checkSuffix
  exact (NR.assertC _).bind fun _ _ => NR.forM fun _ => (NR.shapeAt _ _).bind fun _ _ => (NR.shapeAt _ _).bind fun _ _ => NR.assertC _

theorem broadcast_free [Zero R] (f : R → R → R) (h : Heap R) (t1 t2 : Tensor) (v1 : ExistsIn h t1) (v2 : ExistsIn h t2) :
    SchedFree (fun σ => broadcastOp f σ h t1 t2) := by
  unfold broadcastOp
  refine SchedFree.bind (SchedFree.const (checkSuffix_nr _ _ _)) fun _ _ _ => ?_
  refine SchedFree.bind (SchedFree.const (NR.ofShape _ _)) fun _ x hx => ?_
  obtain ⟨out, h'⟩ := x
  have hd := ofShape_data hx
  simp only
  split
  · refine SchedFree.bind (SchedFree.const (NR.chunkAt _ _)) fun _ c _ => ?_
    refine SchedFree.bind ?_ fun _ _ _ => SchedFree.const (NR.ok _)
    refine parFor_free out.data (fun i => i) (fun _ _ h => h) ?_ (fun _ => NR.ok _)
    intro i it hit; cases hit
    refine ⟨rfl, ?_⟩
    rw [hd]
    intro c hc; simp [iter2, Tensor.cell] at hc
    rcases hc with rfl | rfl
    · exact existsIn_ne v1
    · exact existsIn_ne v2
  · refine SchedFree.bind (SchedFree.const (NR.chunkAt _ _)) fun _ c _ => ?_
    refine SchedFree.bind (SchedFree.const (NR.chunkAt _ _)) fun _ m _ => ?_
    refine SchedFree.bind ?_ fun _ _ _ => SchedFree.const (NR.ok _)
    refine parFor_free out.data (fun i => i) (fun _ _ h => h) ?_ (fun i => (NR.cmod _ _).bind fun _ _ => NR.ok _)
    intro i it hit
    cases hk : cmod i m with
    | error e => simp [hk] at hit
    | ok k =>
      simp only [hk, ok_bind] at hit; cases hit
      refine ⟨rfl, ?_⟩
      rw [hd]
      intro c hc; simp [iter2, Tensor.cell] at hc
      rcases hc with rfl | rfl
      · exact existsIn_ne v1
      · exact existsIn_ne v2

theorem map_free [Zero R] (g : R → Option R) (h : Heap R) (t : Tensor) (v : ExistsIn h t) :
    SchedFree (fun σ => mapOp g σ h t) := by
  unfold mapOp
  refine SchedFree.bind (SchedFree.const (NR.ofShape _ _)) fun _ x hx => ?_
  obtain ⟨out, h'⟩ := x
  have hd := ofShape_data hx
  simp only
  refine SchedFree.bind (SchedFree.const (NR.chunkAt _ _)) fun _ c _ => ?_
  refine SchedFree.bind ?_ fun _ _ _ => SchedFree.const (NR.ok _)
  refine parFor_free out.data (fun i => i) (fun _ _ h => h) ?_ (fun _ => NR.ok _)
  intro i it hit; cases hit
  refine ⟨rfl, ?_⟩
  rw [hd]
  intro c hc; simp [iter1, Tensor.cell] at hc
  subst hc; exact existsIn_ne v

theorem zip_free [Zero R] (g : R → R → Option R) (h : Heap R) (t1 t2 : Tensor) (v1 : ExistsIn h t1) (v2 : ExistsIn h t2) :
    SchedFree (fun σ => zipLoop g σ h t1 t2) := by
  unfold zipLoop
  refine SchedFree.bind (SchedFree.const (NR.ofShape _ _)) fun _ x hx => ?_
  obtain ⟨out, h'⟩ := x
  have hd := ofShape_data hx
  simp only
  refine SchedFree.bind (SchedFree.const (NR.chunkAt _ _)) fun _ c _ => ?_
  refine SchedFree.bind ?_ fun _ _ _ => SchedFree.const (NR.ok _)
  refine parFor_free out.data (fun i => i) (fun _ _ h => h) ?_ (fun _ => NR.ok _)
  intro i it hit; cases hit
  refine ⟨rfl, ?_⟩
  rw [hd]
  intro c hc; simp [iter2, Tensor.cell] at hc
  rcases hc with rfl | rfl
  · exact existsIn_ne v1
  · exact existsIn_ne v2

theorem cell2_ptr {t : Tensor} {a b c : Int} {x : Cell} (h : t.cell2 a b c = .ok x) : x.ptr = t.data := by
  unfold Tensor.cell2 at h
  cases h1 : cint (a * b) with
  | error e => simp [h1] at h
  | ok y =>
    cases h2 : cint (y + c) with
    | error e => simp [h1, h2] at h
    | ok z => simp only [h1, h2, ok_bind] at h; cases h; rfl

theorem colCells_ptr {t : Tensor} {cols i : Int} {lo rows : Nat} {cs : List Cell} (h : colCells t cols i lo rows = .ok cs) :
    ∀ c ∈ cs, c.ptr = t.data := by
  intro c hc
  unfold colCells at h
  obtain ⟨hl, hg⟩ := mapM_eq_ok h
  obtain ⟨k, hk, rfl⟩ := List.getElem_of_mem hc
  exact cell2_ptr (hg k (by omega) hk)

theorem rowCells_ptr {t : Tensor} {cols i : Int} {lo : Nat} {cs : List Cell} (h : rowCells t cols i lo = .ok cs) :
    ∀ c ∈ cs, c.ptr = t.data := by
  intro c hc
  unfold rowCells at h
  obtain ⟨hl, hg⟩ := mapM_eq_ok h
  obtain ⟨k, hk, rfl⟩ := List.getElem_of_mem hc
  exact cell2_ptr (hg k (by omega) hk)

theorem colCells_nr (t : Tensor) (cols i : Int) (lo rows : Nat) : NR (colCells t cols i lo rows) := NR.mapM fun _ => NR.cell2 _ _ _ _
theorem rowCells_nr (t : Tensor) (cols i : Int) (lo : Nat) : NR (rowCells t cols i lo) := NR.mapM fun _ => NR.cell2 _ _ _ _

theorem reduce_free [Zero R] [Add R] (fin : R → Int → R) (h : Heap R) (t : Tensor) (axis : Int) (v : ExistsIn h t) :
    SchedFree (fun σ => reduceAxis fin σ h t axis) := by
  unfold reduceAxis
  refine SchedFree.bind (SchedFree.const (NR.assertC _)) fun _ _ _ => ?_
  refine SchedFree.bind (SchedFree.const (NR.shapeAt _ _)) fun _ rows _ => ?_
  refine SchedFree.bind (SchedFree.const (NR.shapeAt _ _)) fun _ cols _ => ?_
  split
  · refine SchedFree.bind (SchedFree.const (NR.mkShape _)) fun _ s _ => ?_
    refine SchedFree.bind (SchedFree.const (NR.ofShape _ _)) fun _ x hx => ?_
    obtain ⟨out, h'⟩ := x
    have hd := ofShape_data hx
    refine SchedFree.bind ?_ fun _ _ _ => SchedFree.const (NR.ok _)
    refine parFor_free out.data (fun i => i) (fun _ _ h => h) ?_ (fun _ => (colCells_nr _ _ _ _ _).bind fun _ _ => NR.ok _)
    intro i it hit
    cases hk : colCells t cols i 0 rows.toNat with
    | error e => simp [hk] at hit
    | ok cs =>
      simp only [hk, ok_bind] at hit; cases hit
      refine ⟨rfl, fun c hc => ?_⟩
      rw [hd, colCells_ptr hk c hc]; exact existsIn_ne v
  · refine SchedFree.bind (SchedFree.const (NR.mkShape _)) fun _ s _ => ?_
    refine SchedFree.bind (SchedFree.const (NR.ofShape _ _)) fun _ x hx => ?_
    obtain ⟨out, h'⟩ := x
    have hd := ofShape_data hx
    refine SchedFree.bind ?_ fun _ _ _ => SchedFree.const (NR.ok _)
    refine parFor_free out.data (fun i => i) (fun _ _ h => h) ?_ (fun _ => (rowCells_nr _ _ _ _).bind fun _ _ => NR.ok _)
    intro i it hit
    cases hk : rowCells t cols i 0 with
    | error e => simp [hk] at hit
    | ok cs =>
      simp only [hk, ok_bind] at hit; cases hit
      refine ⟨rfl, fun c hc => ?_⟩
      rw [hd, rowCells_ptr hk c hc]; exact existsIn_ne v

theorem arg_free [Zero R] (better : R → R → Bool) (h : Heap R) (t : Tensor) (axis : Int) (v : ExistsIn h t) :
    SchedFree (fun σ => argAxis better σ h t axis) := by
  unfold argAxis
  refine SchedFree.bind (SchedFree.const (NR.assertC _)) fun _ _ _ => ?_
  refine SchedFree.bind (SchedFree.const (NR.shapeAt _ _)) fun _ rows _ => ?_
  refine SchedFree.bind (SchedFree.const (NR.shapeAt _ _)) fun _ cols _ => ?_
  simp only
  split
  · refine SchedFree.bind (SchedFree.const (NR.mkShape _)) fun _ s _ => ?_
    refine SchedFree.bind (SchedFree.const (NR.ofShape _ _)) fun _ x hx => ?_
    obtain ⟨out, h'⟩ := x
    have hd := ofShape_data hx
    refine SchedFree.bind ?_ fun _ _ _ => SchedFree.const (NR.ok _)
    refine parFor_free out.data (fun i => i) (fun _ _ h => h) ?_ (fun _ => (colCells_nr _ _ _ _ _).bind fun _ _ => NR.ok _)
    intro i it hit
    cases hk : colCells t cols i 1 rows.toNat with
    | error e => simp [hk] at hit
    | ok cs =>
      simp only [hk, ok_bind] at hit; cases hit
      refine ⟨rfl, fun c hc => ?_⟩
      rw [hd]
      rcases List.mem_cons.1 hc with rfl | hc
      · exact existsIn_ne v
      · rw [colCells_ptr hk c hc]; exact existsIn_ne v
  · refine SchedFree.bind (SchedFree.const (NR.mkShape _)) fun _ s _ => ?_
    refine SchedFree.bind (SchedFree.const (NR.ofShape _ _)) fun _ x hx => ?_
    obtain ⟨out, h'⟩ := x
    have hd := ofShape_data hx
    refine SchedFree.bind ?_ fun _ _ _ => SchedFree.const (NR.ok _)
    refine parFor_free out.data (fun i => i) (fun _ _ h => h) ?_
      (fun _ => (NR.cint _).bind fun _ _ => (rowCells_nr _ _ _ _).bind fun _ _ => NR.ok _)
    intro i it hit
    cases hm : cint (i * cols) with
    | error e => simp [hm] at hit
    | ok b =>
      cases hk : rowCells t cols i 1 with
      | error e => simp [hm, hk] at hit
      | ok cs =>
        simp only [hm, hk, ok_bind] at hit; cases hit
        refine ⟨rfl, fun c hc => ?_⟩
        rw [hd]
        rcases List.mem_cons.1 hc with rfl | hc
        · exact existsIn_ne v
        · rw [rowCells_ptr hk c hc]; exact existsIn_ne v

theorem dotCells_nr (t1 t2 : Tensor) (k n i j : Int) : NR (dotCells t1 t2 k n i j) := by
  unfold dotCells
  exact (NR.mapM fun _ => (NR.cell2 _ _ _ _).bind fun _ _ => (NR.cell2 _ _ _ _).bind fun _ _ => NR.ok _).bind fun _ _ => NR.ok _

theorem dotCells_ptr {t1 t2 : Tensor} {k n i j : Int} {cs : List Cell} (h : dotCells t1 t2 k n i j = .ok cs) :
    ∀ c ∈ cs, c.ptr = t1.data ∨ c.ptr = t2.data := by
  unfold dotCells at h
  cases hm : (List.range k.toNat).mapM (fun (l : Nat) => (do
    let a ← t1.cell2 i k l
    let b ← t2.cell2 l n j
    pure [a, b] : Res (List Cell))) with
  | error e => simp only [hm, error_bind] at h; cases h
  | ok css =>
    simp only [hm, ok_bind] at h; cases h
    intro c hc
    rw [List.mem_flatten] at hc
    obtain ⟨l, hl, hc⟩ := hc
    obtain ⟨hlen, hg⟩ := mapM_eq_ok hm
    obtain ⟨p, hp, rfl⟩ := List.getElem_of_mem hl
    have := hg p (by omega) hp
    cases h1 : t1.cell2 i k ((List.range k.toNat)[p]'(by omega)) with
    | error e => simp only [h1, error_bind] at this; cases this
    | ok a =>
      cases h2 : t2.cell2 ((List.range k.toNat)[p]'(by omega)) n j with
      | error e => simp only [h1, h2, ok_bind, error_bind] at this; cases this
      | ok b =>
        simp only [h1, h2, ok_bind, pure_eq_ok] at this
        have this := Except.ok.inj this
        rw [← this] at hc
        simp only [List.mem_cons, List.not_mem_nil, or_false] at hc
        rcases hc with rfl | rfl
        · exact .inl (cell2_ptr h1)
        · exact .inr (cell2_ptr h2)

theorem cell2_val {t : Tensor} {a b c : Int} {x : Cell} (h : t.cell2 a b c = .ok x) : x = ⟨t.data, a * b + c⟩ := by
  unfold Tensor.cell2 cint at h
  split at h
  · simp only [ok_bind] at h
    split at h
    · simp only [ok_bind] at h; cases h; rfl
    · cases h
  · cases h

theorem matmulLoop_free [Zero R] [Add R] [Mul R] (t1 t2 out : Tensor) (k n : Int) (h1 : t1.data ≠ out.data) (h2 : t2.data ≠ out.data)
    (todo i : Nat) (h : Heap R) : SchedFree (fun σ : Nat → Sched => matmulLoop σ t1 t2 out k n todo i h) := by
  induction todo generalizing i h with
  | zero => exact SchedFree.const (NR.ok _)
  | succ todo ih =>
    unfold matmulLoop
    refine SchedFree.bind ?_ fun _ h' _ => ih _ _
    have := parFor_free (h := h) (n := n) (body := fun j => do
      let cells ← dotCells t1 t2 k n i j
      let o ← out.cell2 i n j
      pure ⟨cells, fun vs => some (dotAcc 0 vs), o⟩) out.data (fun j => i * n + j) (fun _ _ h => by omega) (by
        intro j it hit
        cases hc : dotCells t1 t2 k n i j with
        | error e => simp [hc] at hit
        | ok cs =>
          cases ho : out.cell2 i n j with
          | error e => simp [hc, ho] at hit
          | ok o =>
            simp only [hc, ho, ok_bind] at hit; cases hit
            refine ⟨cell2_val ho, fun c hcm => ?_⟩
            rcases dotCells_ptr hc c hcm with he | he
            · rw [he]; exact h1
            · rw [he]; exact h2)
      (fun j => (dotCells_nr _ _ _ _ _ _).bind fun _ _ => (NR.cell2 _ _ _ _).bind fun _ _ => NR.ok _)
    exact ⟨fun σ σ' r hr => this.1 (σ i) (σ' i) r hr, fun σ => this.2 (σ i)⟩

theorem matmulCheck_nr (t1 t2 : Tensor) : NR (matmulCheck t1 t2) := by
  unfold matmulCheck
  exact (NR.assertC _).bind fun _ _ => (NR.shapeAt _ _).bind fun _ _ => (NR.shapeAt _ _).bind fun _ _ => (NR.assertC _).bind fun _ _ =>
    (NR.shapeAt _ _).bind fun _ _ => (NR.assertC _).bind fun _ _ => (NR.assertC _).bind fun _ _ => (NR.shapeAt _ _).bind fun _ _ =>
    (NR.assertC _).bind fun _ _ => NR.assertC _

theorem matmulAlloc [Zero R] (h : Heap R) (out : Tensor) (m n : Int) :
    NR (do
      let s ← mkShape [m, n]
      let (tmp, h) ← Tensor.ofShape h s
      let (out', tmp') ← Tensor.moveAssign out tmp
      let h ← tmp'.destroy h
      pure (out', h) : Res (Tensor × Heap R)) ∧ ∀ out' h', (do
      let s ← mkShape [m, n]
      let (tmp, h) ← Tensor.ofShape h s
      let (out', tmp') ← Tensor.moveAssign out tmp
      let h ← tmp'.destroy h
      pure (out', h) : Res (Tensor × Heap R)) = .ok (out', h') → out'.data = some h.blocks.length := by
  have hmk : NR (mkShape [m, n]) := NR.mkShape _
  cases hs : mkShape [m, n] with
  | error e =>
    refine ⟨?_, by intro _ _ he; simp at he⟩
    rw [error_bind]; rw [hs] at hmk; intro hc; cases hc; exact hmk rfl
  | ok s =>
    rw [ok_bind, ofShape_ok h hs, ok_bind]
    simp only [Tensor.moveAssign, assignShape_mk hs, ok_bind, pure_eq_ok, Tensor.destroy]
    exact ⟨NR.ok _, fun _ _ he => by cases he; rfl⟩

theorem matmulPrepare_spec [Zero R] (h : Heap R) (out : Tensor) (m n : Int) :
    NR (matmulPrepare h out m n) ∧ ∀ out' h', matmulPrepare h out m n = .ok (out', h') →
      out'.data = some h.blocks.length ∨ (out' = out ∧ out.data ≠ none) := by
  obtain ⟨a1, a2⟩ := matmulAlloc h out m n
  unfold matmulPrepare
  cases hd : out.data with
  | none =>
    simp only [pure_eq_ok, ok_bind, if_true]
    exact ⟨a1, fun o h' he => .inl (a2 o h' he)⟩
  | some p =>
    simp only
    cases hc : out.chunkAt 0 with
    | error e =>
      have : NR (out.chunkAt 0) := NR.chunkAt _ _
      simp only [error_bind]
      refine ⟨fun he => ?_, fun _ _ he => by cases he⟩
      cases he; exact this hc
    | ok c =>
      cases hm : cint (m * n) with
      | error e =>
        have : NR (cint (m * n)) := NR.cint _
        simp only [error_bind, ok_bind]
        refine ⟨fun he => ?_, fun _ _ he => by cases he⟩
        cases he; exact this hm
      | ok mn =>
        simp only [ok_bind, pure_eq_ok]
        split
        · exact ⟨a1, fun o h' he => .inl (a2 o h' he)⟩
        · exact ⟨NR.ok _, fun o h' he => by cases he; exact .inr ⟨rfl, by simp⟩⟩

theorem matmul_free [Zero R] [Add R] [Mul R] (h : Heap R) (t1 t2 out : Tensor) (v1 : ExistsIn h t1) (v2 : ExistsIn h t2)
    (hne : out.data = none ∨ (t1.data ≠ out.data ∧ t2.data ≠ out.data)) :
    SchedFree (fun σ : Nat → Sched => matmul σ h t1 t2 out) := by
  unfold matmul
  refine SchedFree.bind (SchedFree.const (matmulCheck_nr _ _)) fun _ _ _ => ?_
  refine SchedFree.bind (SchedFree.const (NR.shapeAt _ _)) fun _ m _ => ?_
  refine SchedFree.bind (SchedFree.const (NR.shapeAt _ _)) fun _ k _ => ?_
  refine SchedFree.bind (SchedFree.const (NR.shapeAt _ _)) fun _ n _ => ?_
  refine SchedFree.bind (SchedFree.const (matmulPrepare_spec _ _ _ _).1) fun _ x hx => ?_
  obtain ⟨out', h'⟩ := x
  have hp := (matmulPrepare_spec _ _ _ _).2 _ _ hx
  have hn : t1.data ≠ out'.data ∧ t2.data ≠ out'.data := by
    rcases hp with hp | ⟨rfl, hp⟩
    · rw [hp]; exact ⟨existsIn_ne v1, existsIn_ne v2⟩
    · rcases hne with hne | hne
      · exact absurd hne hp
      · exact hne
  refine SchedFree.bind (matmulLoop_free _ _ _ _ _ hn.1 hn.2 _ _ _) fun _ h'' _ => ?_
  refine SchedFree.bind (SchedFree.const (NR.copyCtor _ _)) fun _ y _ => SchedFree.const (NR.ok _)

theorem NR.deleteArr (h : Heap R) (p : Ptr) : NR (h.deleteArr p) := by
  unfold Heap.deleteArr
  repeat' split
  all_goals (intro hc; cases hc)

theorem NR.destroy (h : Heap R) (t : Tensor) : NR (t.destroy h) := by
  unfold Tensor.destroy
  split
  · exact NR.ok _
  · exact NR.deleteArr _ _

theorem matmulOp_free [Zero R] [Add R] [Mul R] (h : Heap R) (t1 t2 : Tensor) (v1 : ExistsIn h t1) (v2 : ExistsIn h t2) :
    SchedFree (fun σ : Nat → Sched => matmulOp σ h t1 t2) := by
  unfold matmulOp
  have hd : Tensor.mkDefault = .ok ⟨⟨[0], [1]⟩, none⟩ := by decide
  rw [hd]
  simp only [ok_bind]
  refine SchedFree.bind (matmul_free h t1 t2 _ v1 v2 (.inl rfl)) fun _ x _ => ?_
  obtain ⟨o, r, h'⟩ := x
  exact SchedFree.bind (SchedFree.const (NR.destroy _ _)) fun _ _ _ => SchedFree.const (NR.ok _)

/-- **C23**, tensor-tensor operators. The operands may be any tensors whose buffers exist: valid or not, equal or not. -/
theorem C23_binary [Zero R] [One R] [Add R] [Sub R] [Mul R] [Div R] [BEq R] [LT R] [LE R] [DecidableRel (α := R) (· < ·)]
    [DecidableRel (α := R) (· ≤ ·)] [CMath R] (h : Heap R) (t1 t2 : Tensor) (eps : R) (v1 : ExistsIn h t1) (v2 : ExistsIn h t2) :
    SchedFree (fun σ => addTT σ h t1 t2) ∧ SchedFree (fun σ => subTT σ h t1 t2) ∧ SchedFree (fun σ => mulTT σ h t1 t2) ∧
    SchedFree (fun σ => divTT σ h t1 t2) ∧ SchedFree (fun σ => powTT σ h t1 t2) ∧ SchedFree (fun σ => eqTT σ h t1 t2) ∧
    SchedFree (fun σ => equalTT σ h t1 t2 eps) := by
  have hce : NR (checkEqualShapes t1 t2) := by
    unfold checkEqualShapes
    exact (NR.assertC _).bind fun _ _ => NR.forM fun _ => (NR.shapeAt _ _).bind fun _ _ => (NR.shapeAt _ _).bind fun _ _ => NR.assertC _
  refine ⟨broadcast_free _ h t1 t2 v1 v2, broadcast_free _ h t1 t2 v1 v2, broadcast_free _ h t1 t2 v1 v2,
    broadcast_free _ h t1 t2 v1 v2, ?_, ?_, ?_⟩
  · unfold powTT
    refine SchedFree.bind (SchedFree.const (NR.assertC _)) fun _ _ _ => ?_
    refine SchedFree.bind (SchedFree.const (NR.forM fun _ => (NR.shapeAt _ _).bind fun _ _ => (NR.shapeAt _ _).bind fun _ _ =>
      NR.assertC _)) fun _ _ _ => zip_free _ h t1 t2 v1 v2
  · unfold eqTT
    exact SchedFree.bind (SchedFree.const hce) fun _ _ _ => zip_free _ h t1 t2 v1 v2
  · unfold equalTT
    refine SchedFree.bind (SchedFree.const (NR.assertC _)) fun _ _ _ => ?_
    exact SchedFree.bind (SchedFree.const hce) fun _ _ _ => zip_free _ h t1 t2 v1 v2

/-- **C23**, scalar and unary operators. -/
theorem C23_unary [Zero R] [One R] [Add R] [Sub R] [Mul R] [Div R] [Neg R] [BEq R] [LT R] [LE R] [DecidableRel (α := R) (· < ·)]
    [DecidableRel (α := R) (· ≤ ·)] [CMath R] (h : Heap R) (t : Tensor) (x eps : R) (v : ExistsIn h t) :
    SchedFree (fun σ => addTS σ h t x) ∧ SchedFree (fun σ => subTS σ h t x) ∧ SchedFree (fun σ => mulTS σ h t x) ∧
    SchedFree (fun σ => divTS σ h t x) ∧ SchedFree (fun σ => powTS σ h t x) ∧ SchedFree (fun σ => negT σ h t) ∧
    SchedFree (fun σ => expT σ h t) ∧ SchedFree (fun σ => logT σ h t) ∧ SchedFree (fun σ => sqrtT σ h t) ∧
    SchedFree (fun σ => eqTS σ h t x) ∧ SchedFree (fun σ => equalTS σ h t x eps) := by
  refine ⟨map_free _ h t v, map_free _ h t v, map_free _ h t v, map_free _ h t v, map_free _ h t v, map_free _ h t v,
    map_free _ h t v, map_free _ h t v, map_free _ h t v, map_free _ h t v, ?_⟩
  unfold equalTS
  exact SchedFree.bind (SchedFree.const (NR.assertC _)) fun _ _ _ => map_free _ h t v

/-- **C23**, axis reductions. -/
theorem C23_axis [Zero R] [Add R] [Div R] [LT R] [DecidableRel (α := R) (· < ·)] [CMath R] (h : Heap R) (t : Tensor) (axis : Int)
    (v : ExistsIn h t) :
    SchedFree (fun σ => reduceSumAxis σ h t axis) ∧ SchedFree (fun σ => reduceMeanAxis σ h t axis) ∧
    SchedFree (fun σ => argmaxT σ h t axis) ∧ SchedFree (fun σ => argminT σ h t axis) :=
  ⟨reduce_free _ h t axis v, reduce_free _ h t axis v, arg_free _ h t axis v, arg_free _ h t axis v⟩

/-- **C23**, matrix products; for the three-argument form `output` must not share the buffer of an operand (`C22_alias_race`). -/
theorem C23_matmul [Zero R] [Add R] [Mul R] (h : Heap R) (t1 t2 out : Tensor) (v1 : ExistsIn h t1) (v2 : ExistsIn h t2)
    (hne : out.data = none ∨ (t1.data ≠ out.data ∧ t2.data ≠ out.data)) :
    SchedFree (fun σ : Nat → Sched => matmulOp σ h t1 t2) ∧ SchedFree (fun σ : Nat → Sched => matmul σ h t1 t2 out) :=
  ⟨matmulOp_free h t1 t2 v1 v2, matmul_free h t1 t2 out v1 v2 hne⟩

example : ExistsIn exHeap exA ∧ ExistsIn exHeap exB ∧ exA.data ≠ exB.data := by
  refine ⟨?_, ?_, by decide⟩ <;> (intro p hp; cases hp; decide)

end Nnet.Tensor
