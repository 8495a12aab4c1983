import Verif.NN.Special
/-!
# The OpenMP loops of the convolution and pooling layers

`#pragma omp parallel for ... if (nfilter >= 16)`, conv2dlayer.cpp:54-61 and 79-97, maxpoollayer.cpp:33-43, meanpoollayer.cpp:29-38. The iterations
read matrices that no iteration writes (`images`, `W`, the image of the delta; private variables otherwise) and then update elements of one or two
shared matrices. The iterations are concurrent, one iteration is a sequence of loads and stores of single elements (`+=` is a load followed by a
store), and a schedule oracle picks before every single access which unfinished iteration moves next. Two accesses to one element by
different iterations, at least one of them a store, are a data race and undefined behaviour.

Simplification: an iteration computes its private values before the first access to the shared matrices of any iteration; nothing it reads for them
is written in the loop. An exception in an iteration ends the program; here it is the result of the loop.
-/
namespace Nnet.NN
noncomputable section

/-- An element of a shared matrix: which matrix (0 or 1), row, column. -/
structure Loc where
  var : Nat
  row : Nat
  col : Nat
  deriving DecidableEq

/-- What an iteration does to the shared matrices: `m(row, col) += v` or `m(row, col) = v`. -/
inductive MAct where
  | add (l : Loc) (v : ℝ)
  | set (l : Loc) (v : ℝ)

/-- The element an action accesses. -/
def MAct.loc : MAct → Loc
  | .add l _ => l
  | .set l _ => l

/-- Contents of the shared matrices. -/
abbrev Mem := Loc → ℝ

/-- An iteration in progress: its number, what it still has to do, and the loaded value in the middle of a `+=`. -/
structure Th where
  id : Nat
  acts : List MAct
  reg : Option ℝ

/-- A logged access. -/
structure Access where
  id : Nat
  loc : Loc
  wr : Bool
  deriving DecidableEq

/-- Different iterations, same element, at least one store. -/
def Access.conflict (a b : Access) : Bool := decide (a.id ≠ b.id) && decide (a.loc = b.loc) && (a.wr || b.wr)

/-- One access of an iteration: new memory, the access, the rest of the iteration. -/
def Th.step (m : Mem) (t : Th) : Mem × Option Access × Th :=
  match t.acts with
  | [] => (m, none, t)
  | .set l v :: as => (fun q => if q = l then v else m q, some ⟨t.id, l, true⟩, ⟨t.id, as, none⟩)
  | .add l v :: as =>
    match t.reg with
    | none => (m, some ⟨t.id, l, false⟩, ⟨t.id, .add l v :: as, some (m l)⟩)
    | some r => (fun q => if q = l then r + v else m q, some ⟨t.id, l, true⟩, ⟨t.id, as, none⟩)

/-- Runs the unfinished iterations: at step `s` the schedule `σ s` picks one, modulo their number. -/
def runTh (σ : Nat → Nat) : (fuel : Nat) → (s : Nat) → Mem → (log : List Access) → List Th → Res Mem
  | 0, _, m, _, ths => if ths.all (fun t => t.acts.isEmpty) then .ok m else .error .fuel
  | fuel + 1, s, m, log, ths =>
    match ths.filter (fun t => !t.acts.isEmpty) with
    | [] => .ok m
    | t0 :: ts =>
      match (t0 :: ts)[σ s % (ts.length + 1)]? with
      | none => .error .fuel
      | some t =>
        let (m', a, t') := t.step m
        if a.toList.any (fun a => log.any (fun b => a.conflict b)) then .error (.ub .dataRace)
        else runTh σ fuel (s + 1) m' (a.toList ++ log) ((t0 :: ts).set (σ s % (ts.length + 1)) t')

/-- Number of accesses of an iteration. -/
def actSteps : List MAct → Nat
  | [] => 0
  | .add _ _ :: as => 2 + actSteps as
  | .set _ _ :: as => 1 + actSteps as

/-- The shared matrices as memory. -/
def memOf (M : Mat ℝ × Mat ℝ) : Mem := fun l => if l.var = 0 then M.1.f l.row l.col else M.2.f l.row l.col

/-- The shared matrices after the loop. -/
def matsOf (M : Mat ℝ × Mat ℝ) (m : Mem) : Mat ℝ × Mat ℝ :=
  (Mat.of M.1.nr M.1.nc (fun i j => m ⟨0, i, j⟩), Mat.of M.2.nr M.2.nc (fun i j => m ⟨1, i, j⟩))

/-- `#pragma omp parallel for for (int k = 0; k < n; ++k) body(k)` on the shared matrices `M`. -/
def parLoop (σ : Nat → Nat) (n : Nat) (M : Mat ℝ × Mat ℝ) (body : Nat → Res (List MAct)) : Res (Mat ℝ × Mat ℝ) := do
  let as ← (List.range n).mapM body
  let m ← runTh σ (as.map actSteps).sum 0 (memOf M) [] (as.mapIdx (fun k a => ⟨k, a, none⟩))
  .ok (matsOf M m)

/-- The element accesses of `m.submat(r1, c1, r2, c2) op= v`, column by column as Armadillo does, where `m` is the shared matrix `var`. -/
def blockActs (op : Loc → ℝ → MAct) (var : Nat) (m : Mat ℝ) (r1 c1 r2 c2 : Int) (v : Mat ℝ) : Res (List MAct) :=
  if m.InView r1 c1 r2 c2 then
    if v.nr = (r2 - r1 + 1).toNat ∧ v.nc = (c2 - c1 + 1).toNat then
      .ok ((List.range v.nc).flatMap (fun b => (List.range v.nr).map (fun a => op ⟨var, a + r1.toNat, b + c1.toNat⟩ (v.f a b))))
    else .error .throw
  else .error .throw

/-- The loops of the three `forwardprop` functions with the inner loop parallel when there are at least 16 filters: `step i j k image` is what
iteration `k` does, on the shared matrices `a` (0) and `extra` (1); `seq` is the same iteration when the loop is not parallel. -/
def Conv.channelLoopsPar (σ : Nat → Nat → Nat → Nat) (junk : Nat → Nat → ℝ) (c : Conv) (pa : Mat ℝ) (extra : Mat ℝ)
    (step : (i : Nat) → (j : Nat) → (k : Nat) → Mat ℝ → Mat ℝ × Mat ℝ → Res (List MAct))
    (seq : (i : Nat) → (j : Nat) → (k : Nat) → Mat ℝ → Mat ℝ × Mat ℝ → Res (Mat ℝ × Mat ℝ)) : Res (Mat ℝ × List (Mat ℝ) × Mat ℝ) := do
  let a ← Mat.mk' (fun _ _ => (0 : ℝ)) pa.nr (c.outputsize * c.nfilter)
  let images ← newImages junk c pa.nr
  loop pa.nr (fun i s => do
    let _sample ← pa.row i
    loop c.pnfilter.toNat (fun j (s : Mat ℝ × List (Mat ℝ) × Mat ℝ) => do
      let img ← toimage pa j c.inputwidth c.inputheight
      let padded ← addzeropadding c.padding img
      let images ← setSlice s.2.1 i padded
      let M ← if 16 ≤ c.nfilter then
          parLoop (σ i j) c.nfilter.toNat (s.1, s.2.2) (fun k => do
            let image ← getSlice images i
            step i j k image (s.1, s.2.2))
        else loop c.nfilter.toNat (fun k (M : Mat ℝ × Mat ℝ) => do
            let image ← getSlice images i
            seq i j k image M) (s.1, s.2.2)
      .ok (M.1, images, M.2)) s) (a, images, extra)

/-- `Conv2DLayer::forwardprop(pa)` with OpenMP, conv2dlayer.cpp:43-65. -/
def Conv.forwardpropPar (σ : Nat → Nat → Nat → Nat) (junk : Nat → Nat → ℝ) (L : Layer) (c : Conv) (pa : Mat ℝ) : Res (Mat ℝ × Layer × Conv) := do
  let (a, images, _) ← channelLoopsPar σ junk c pa .empty
    (fun i j k image M => do
      let kernel ← spatialBlock c.spatial L.W j k
      let o ← convolve junk c.stride image kernel
      blockActs .add 0 M.1 i (k * c.outputsize) i (((k : Int) + 1) * c.outputsize - 1) o)
    (fun i j k image M => do
      let kernel ← spatialBlock c.spatial L.W j k
      let o ← convolve junk c.stride image kernel
      let a ← addRowBlock M.1 i k c.outputsize o
      .ok (a, M.2))
  .ok (funcop a L.actfunc.act, { L with a := a }, { c with images := images })

/-- `MeanPoolLayer::forwardprop(pa)` with OpenMP, meanpoollayer.cpp:18-42. -/
def MeanPool.forwardpropPar (σ : Nat → Nat → Nat → Nat) (junk : Nat → Nat → ℝ) (L : Layer) (c : Conv) (pa : Mat ℝ) : Res (Mat ℝ × Layer × Conv) := do
  let (a, images, _) ← Conv.channelLoopsPar σ junk c pa .empty
    (fun i _ k image M => do
      let o ← MeanPool.meanpool c.spatial c.stride image
      blockActs .add 0 M.1 i (k * c.outputsize) i (((k : Int) + 1) * c.outputsize - 1) o)
    (fun i _ k image M => do
      let o ← MeanPool.meanpool c.spatial c.stride image
      let a ← Conv.addRowBlock M.1 i k c.outputsize o
      .ok (a, M.2))
  .ok (funcop a L.actfunc.act, { L with a := a }, { c with images := images })

/-- `MaxPoolLayer::forwardprop(pa)` with OpenMP, maxpoollayer.cpp:21-47: every iteration also stores the same row of `indexes`. -/
def MaxPool.forwardpropPar (σ : Nat → Nat → Nat → Nat) (junk : Nat → Nat → ℝ) (L : Layer) (c : Conv) (pa : Mat ℝ) :
    Res (Mat ℝ × Layer × Conv × Mat ℝ) := do
  let indexes ← Mat.mk' junk pa.nr (c.outputsize * 2)
  let (a, images, indexes) ← Conv.channelLoopsPar σ junk c pa indexes
    (fun i _ k image M => do
      let (o, index) ← MaxPool.maxpool c.spatial c.stride image
      let as ← blockActs .add 0 M.1 i (k * c.outputsize) i (((k : Int) + 1) * c.outputsize - 1) o
      let is ← blockActs .set 1 M.2 i 0 i (c.outputsize * 2 - 1) index
      .ok (as ++ is))
    (fun i _ k image M => do
      let (o, index) ← MaxPool.maxpool c.spatial c.stride image
      let indexes ← M.2.updSubmat (fun _ v => v) i 0 i (c.outputsize * 2 - 1) index
      let a ← Conv.addRowBlock M.1 i k c.outputsize o
      .ok (a, indexes))
  .ok (funcop a L.actfunc.act, { L with a := a }, { c with images := images }, indexes)

/-- `Conv2DLayer::backprop(del)` with OpenMP, conv2dlayer.cpp:67-100: the loop over the input channels is parallel when there are at least 16 of
them. -/
def Conv.backpropPar (σ : Nat → Nat → Nat → Nat) (junk : Nat → Nat → ℝ) (L : Layer) (c : Conv) (del : Mat ℝ) : Res (Mat ℝ × Layer × Conv) := do
  let delta ← Mat.mk' (fun _ _ => (0 : ℝ)) del.nr (c.inputsize * c.pnfilter)
  let grad := Mat.of L.grad.nr L.grad.nc (fun _ _ => (0 : ℝ))
  let d := funcop del L.actfunc.actd
  let (delta, grad) ← loop d.nr (fun i s => do
    let deltay ← d.row i
    loop c.nfilter.toNat (fun k s => do
      let dimg ← toimage deltay k c.outputwidth c.outputheight
      if 16 ≤ c.pnfilter then
        parLoop (σ i k) c.pnfilter.toNat s (fun j => do
          let image ← getSlice c.images i
          let partialgrad ← convolve junk c.stride image dimg
          let partialgrad ← (if 0 ≤ c.spatial then .ok (partialgrad.reshape c.spatial.toNat c.spatial.toNat) else .error .throw : Res _)
          let gs ← blockActs .add 1 s.2 (j * c.spatial) (k * c.spatial) (((j : Int) + 1) * c.spatial - 1) (((k : Int) + 1) * c.spatial - 1) partialgrad
          let paddimg ← addzeropadding c.padding dimg
          let kernel ← flip c.spatial L.W j k
          let partialdelta ← convolve junk c.stride paddimg kernel
          let ds ← blockActs .add 0 s.1 i (j * c.inputsize) i (((j : Int) + 1) * c.inputsize - 1) partialdelta
          .ok (gs ++ ds))
      else loop c.pnfilter.toNat (fun j (s : Mat ℝ × Mat ℝ) => do
        let image ← getSlice c.images i
        let partialgrad ← convolve junk c.stride image dimg
        let partialgrad ← (if 0 ≤ c.spatial then .ok (partialgrad.reshape c.spatial.toNat c.spatial.toNat) else .error .throw : Res _)
        let grad ← s.2.updSubmat (· + ·) (j * c.spatial) (k * c.spatial) (((j : Int) + 1) * c.spatial - 1) (((k : Int) + 1) * c.spatial - 1) partialgrad
        let paddimg ← addzeropadding c.padding dimg
        let kernel ← flip c.spatial L.W j k
        let partialdelta ← convolve junk c.stride paddimg kernel
        let delta ← addRowBlock s.1 i j c.inputsize partialdelta
        .ok (delta, grad)) s) s) (delta, grad)
  .ok (delta, { L with delta := delta, grad := grad }, c)

end
end Nnet.NN
