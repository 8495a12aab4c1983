import Verif.Tensor.Alloc
import Verif.Tensor.PropsFrame
import Verif.Tensor.PropsLife
/-!
# C110: tensor operations when memory runs out
-/
namespace Nnet.Tensor
variable {R : Type} {α β : Type}

/-! ## Specification -/

/-- Nothing that existed in `h` has changed in `h'`, and everything that was allocated in between is released again. -/
def Clean (h h' : Heap R) : Prop := ∃ bs : List (Block R), h'.blocks = h.blocks ++ bs ∧ ∀ b ∈ bs, b.live = false

/-- The call ended as the call without failing requests, `r`, ends. -/
def Agrees (r : Res (α × Heap R)) (x : End α × St R) : Prop :=
  match r with
  | .ok (a, h') => ∃ mem', x = (.ret a, ⟨h', mem'⟩)
  | .error s => ∃ st', x = (.stop s, st')

/-- `run` is `plain` with requests that may fail: either a request failed, `std::bad_alloc` left the call and the call has left nothing behind, or the call does what `plain` does. -/
def Failsafe (plain : Heap R → Res (α × Heap R)) (run : A R α) : Prop :=
  ∀ (h : Heap R) (mem : Nat → Bool),
    (∃ h' mem', run ⟨h, mem⟩ = (.bad, ⟨h', mem'⟩) ∧ Clean h h' ∧ ∃ n, mem n = false) ∨
    Agrees (plain h) (run ⟨h, mem⟩)

/-! ## Proofs -/

theorem Clean.refl (h : Heap R) : Clean h h := ⟨[], by simp, by simp⟩

/-- Block `q = h.blocks.length` is the only addition to `h`, an array still alive. -/
def OneMore (h h' : Heap R) : Prop := ∃ b : Block R, h'.blocks = h.blocks ++ [b] ∧ b.live = true ∧ b.isArray = true

theorem OneMore.destroy {h h' : Heap R} (H : OneMore h h') {t : Tensor} (ht : t.data = some h.blocks.length) :
    ∃ h'', t.destroy h' = .ok h'' ∧ Clean h h'' := by
  obtain ⟨b, hb, hl, ha⟩ := H
  refine ⟨⟨h'.blocks.set h.blocks.length { b with live := false }⟩, ?_, ?_⟩
  · simp [Tensor.destroy, ht, Heap.deleteArr, hb, hl, ha]
  · exact ⟨[{ b with live := false }], by simp [hb], by simp⟩

theorem OneMore.write {h h1 h2 : Heap R} (H : OneMore h h1) {i : Int} {v : R} (hw : h1.write (some h.blocks.length) i v = .ok h2) :
    OneMore h h2 := by
  obtain ⟨b, hb, hl, ha⟩ := H
  unfold Heap.write at hw
  obtain ⟨⟨q', k⟩, hacc, hr⟩ := bind_ok hw
  obtain ⟨hq, -, -⟩ := access_some hacc
  cases hq; cases hr
  refine ⟨{ b with cells := b.cells.set k (some v) }, ?_, hl, ha⟩
  apply List.ext_getElem?
  intro j
  simp only [Heap.poke, hb, List.getElem?_modify]
  by_cases hj : h.blocks.length = j
  · subst hj; simp
  · simp only [if_neg hj]
    rcases Nat.lt_or_ge j h.blocks.length with h1 | h1
    · rw [List.getElem?_append_left h1, List.getElem?_append_left h1]; simp
    · rw [List.getElem?_append_right h1, List.getElem?_append_right h1, List.getElem?_cons, List.getElem?_cons, if_neg (by omega), if_neg (by omega)]
      simp

theorem mkShapeA_bind (dims : List Int) (k : TensorShape → A R α) :
    (do let s ← mkShapeA dims; k s : A R α) = (do A.ask; let s ← A.res (mkShape dims); k s) := by
  funext st
  simp only [mkShapeA, Bind.bind, A.bind, A.ask]
  cases st.mem 0 with
  | false => rfl
  | true => rfl

namespace FS

theorem ask {plain : Heap R → Res (α × Heap R)} {run : A R α} (H : Failsafe plain run) :
    Failsafe plain (do A.ask; run) := by
  intro h mem
  show (∃ h' mem', (A.bind A.ask fun _ => run) ⟨h, mem⟩ = _ ∧ _) ∨ _
  cases h0 : mem 0 with
  | false =>
    left
    refine ⟨h, fun n => mem (n + 1), ?_, Clean.refl h, 0, h0⟩
    simp [A.bind, A.ask, h0]
  | true =>
    have he : (A.bind A.ask fun _ => run) ⟨h, mem⟩ = run ⟨h, fun n => mem (n + 1)⟩ := by simp [A.bind, A.ask, h0]
    have := H h (fun n => mem (n + 1))
    rw [← he] at this
    rcases this with ⟨h', m', h1, h2, n, hn⟩ | this
    · exact .inl ⟨h', m', h1, h2, n + 1, hn⟩
    · exact .inr this

theorem res {r : Res β} {plain : β → Heap R → Res (α × Heap R)} {run : β → A R α} (H : ∀ b, r = .ok b → Failsafe (plain b) (run b)) :
    Failsafe (fun h => do let b ← r; plain b h) (do let b ← A.res r; run b) := by
  cases r with
  | error s =>
    intro h mem
    exact .inr ⟨⟨h, mem⟩, rfl⟩
  | ok b => exact H b rfl

theorem ret (a : α) : Failsafe (fun h => .ok (a, h)) (A.ret a : A R α) := fun _ mem => .inr ⟨mem, rfl⟩

/-- `Tensor out(shape)` and the rest of the block. -/
theorem alloc [Zero R] {s : TensorShape} {plain : Tensor → Heap R → Res (α × Heap R)} {run : Tensor → A R α}
    (H : ∀ (h h1 : Heap R) (mem : Nat → Bool) (out : Tensor), OneMore h h1 → out.data = some h.blocks.length →
      (∃ h' mem', run out ⟨h1, mem⟩ = (.bad, ⟨h', mem'⟩) ∧ Clean h h' ∧ ∃ n, mem n = false) ∨
      Agrees (plain out h1) (run out ⟨h1, mem⟩)) :
    Failsafe (fun h => do let (out, h) ← Tensor.ofShape h s; plain out h) (do let out ← Tensor.ofShapeA s; run out) := by
  have key : Failsafe (fun h => do
        let s ← copyShape s
        let n ← s.chunkAt 0
        plain ⟨s, some h.blocks.length⟩ ⟨h.blocks ++ [⟨List.replicate n.toNat (some 0), true, true⟩]⟩)
      (do
        A.ask
        let s ← A.res (copyShape s)
        let n ← A.res (s.chunkAt 0)
        A.ask
        fun st => run ⟨s, some st.heap.blocks.length⟩ { st with heap := ⟨st.heap.blocks ++ [⟨List.replicate n.toNat (some 0), true, true⟩]⟩ }) := by
    refine FS.ask (FS.res fun s _ => FS.res fun n _ => FS.ask ?_)
    intro h mem
    exact H h _ mem _ ⟨_, rfl, rfl, rfl⟩ rfl
  have e1 : (fun h => do let (out, h) ← Tensor.ofShape h s; plain out h) = (fun h => do
        let s ← copyShape s
        let n ← s.chunkAt 0
        plain ⟨s, some h.blocks.length⟩ ⟨h.blocks ++ [⟨List.replicate n.toNat (some 0), true, true⟩]⟩) := by
    funext h
    simp only [Tensor.ofShape, Heap.alloc]
    cases copyShape s with
    | error e => rfl
    | ok s =>
      simp only [ok_bind]
      cases s.chunkAt 0 with
      | error e => rfl
      | ok n => rfl
  have e2 : (do let out ← Tensor.ofShapeA s; run out : A R α) = (do
        A.ask
        let s ← A.res (copyShape s)
        let n ← A.res (s.chunkAt 0)
        A.ask
        fun st => run ⟨s, some st.heap.blocks.length⟩ { st with heap := ⟨st.heap.blocks ++ [⟨List.replicate n.toNat (some 0), true, true⟩]⟩ }) := by
    funext st
    simp only [Tensor.ofShapeA, copyShapeA, mkShapeA, copyShape, Bind.bind, A.bind, A.ask, A.new, Heap.alloc]
    cases st.mem 0 with
    | false => rfl
    | true =>
      simp only [if_true]
      cases mkShape s.shape with
      | error e => rfl
      | ok s =>
        simp only [A.res]
        cases s.chunkAt 0 with
        | error e => rfl
        | ok n =>
          simp only
          cases st.mem (0 + 1) <;> rfl
  rw [e1, e2]
  exact key

theorem local_of_ask {h h1 : Heap R} {mem : Nat → Bool} {out : Tensor} (H : OneMore h h1) (ho : out.data = some h.blocks.length)
    {f : Heap R → Res (Heap R)} :
    (∃ h' mem', A.local' out (do A.ask; A.onHeap f; A.ret out) ⟨h1, mem⟩ = (.bad, ⟨h', mem'⟩) ∧ Clean h h' ∧ ∃ n, mem n = false) ∨
      Agrees (do let h ← f h1; pure (out, h) : Res (Tensor × Heap R)) (A.local' out (do A.ask; A.onHeap f; A.ret out) ⟨h1, mem⟩) := by
  cases h0 : mem 0 with
  | false =>
    obtain ⟨h'', hd, hc⟩ := H.destroy ho
    left
    refine ⟨h'', fun n => mem (n + 1), ?_, hc, 0, h0⟩
    simp [A.local', Bind.bind, A.bind, A.ask, h0, hd]
  | true =>
    right
    cases hf : f h1 with
    | error e =>
      refine ⟨⟨h1, fun n => mem (n + 1)⟩, ?_⟩
      simp [A.local', Bind.bind, A.bind, A.ask, h0, A.onHeap, hf]
    | ok h2 =>
      refine ⟨fun n => mem (n + 1), ?_⟩
      simp [A.local', Bind.bind, A.bind, A.ask, h0, A.onHeap, hf, A.ret]

theorem local_no_ask {h h1 : Heap R} {mem : Nat → Bool} {out : Tensor} {f : Heap R → Res (Heap R)} :
    (∃ h' mem', A.local' out (do A.onHeap f; A.ret out) ⟨h1, mem⟩ = (.bad, ⟨h', mem'⟩) ∧ Clean h h' ∧ ∃ n, mem n = false) ∨
      Agrees (do let h ← f h1; pure (out, h) : Res (Tensor × Heap R)) (A.local' out (do A.onHeap f; A.ret out) ⟨h1, mem⟩) := by
  right
  cases hf : f h1 with
  | error e =>
    refine ⟨⟨h1, mem⟩, ?_⟩
    simp [A.local', Bind.bind, A.bind, A.onHeap, hf]
  | ok h2 =>
    refine ⟨mem, ?_⟩
    simp [A.local', Bind.bind, A.bind, A.onHeap, hf, A.ret]

end FS

/-- What an operation does when memory does not run out. -/
def OpCode.plain [Zero R] (c : OpCode R) (h : Heap R) : Res (Tensor × Heap R) := do
  c.pre
  let s ← c.shape
  let (out, h) ← Tensor.ofShape h s
  let h ← c.body out h
  pure (out, h)

theorem OpCode.failsafe [Zero R] (c : OpCode R) : Failsafe c.plain c.runA :=
  FS.ask (FS.res fun _ _ => FS.ask (FS.res fun s _ =>
    FS.alloc (s := s) (plain := fun out h => do let h ← c.body out h; pure (out, h))
      (run := fun out => A.local' out do A.ask; A.onHeap (c.body out); A.ret out) fun _ _ _ out H ho => FS.local_of_ask (f := c.body out) H ho))

theorem broadcastCode_plain [Zero R] (f : R → R → R) (σ : Sched) (t1 t2 : Tensor) (h : Heap R) :
    broadcastOp f σ h t1 t2 = (broadcastCode f σ t1 t2).plain h := by
  unfold broadcastOp OpCode.plain broadcastCode
  simp only
  cases checkSuffix t1 t2 (t1.shape.size - t2.shape.size) with
  | error e => rfl
  | ok u =>
    simp only [ok_bind]
    cases Tensor.ofShape h t1.shape with
    | error e => rfl
    | ok p =>
      simp only [ok_bind]
      split
      · simp only [bind_assoc]
      · simp only [bind_assoc]

theorem mapCode_plain [Zero R] (g : R → Option R) (σ : Sched) (t : Tensor) (h : Heap R) (pre : Res Unit) :
    (do pre; mapOp g σ h t) = (mapCode pre g σ t).plain h := by
  unfold mapOp OpCode.plain mapCode
  simp only [bind_assoc, ok_bind]

theorem zipCode_plain [Zero R] (g : R → R → Option R) (σ : Sched) (t1 t2 : Tensor) (h : Heap R) (pre : Res Unit) :
    (do pre; zipLoop g σ h t1 t2) = (zipCode pre g σ t1 t2).plain h := by
  unfold zipLoop OpCode.plain zipCode
  simp only [bind_assoc, ok_bind]

theorem reduceCode_plain [Zero R] [Add R] (fin : R → Int → R) (σ : Sched) (t : Tensor) (axis : Int) (h : Heap R) :
    reduceAxis fin σ h t axis = (reduceCode fin σ t axis).plain h := by
  unfold reduceAxis OpCode.plain reduceCode
  simp only [bind_assoc]
  cases assertC (t.shape.size = 2) with
  | error e => rfl
  | ok u =>
    simp only [ok_bind]
    cases h0 : t.shapeAt 0 with
    | error e => rfl
    | ok rows =>
      simp only [ok_bind]
      cases h1 : t.shapeAt 1 with
      | error e => rfl
      | ok cols =>
        simp only [ok_bind, pure_bind]
        split <;> simp only [bind_assoc]

theorem argCode_plain [Zero R] (better : R → R → Bool) (σ : Sched) (t : Tensor) (axis : Int) (h : Heap R) :
    argAxis better σ h t axis = (argCode better σ t axis).plain h := by
  unfold argAxis OpCode.plain argCode
  simp only [bind_assoc]
  cases assertC (t.shape.size = 2) with
  | error e => rfl
  | ok u =>
    simp only [ok_bind]
    cases h0 : t.shapeAt 0 with
    | error e => rfl
    | ok rows =>
      simp only [ok_bind]
      cases h1 : t.shapeAt 1 with
      | error e => rfl
      | ok cols =>
        simp only [ok_bind, pure_bind]
        split <;> rfl


/-! ## Constructors and factories -/

theorem ofShape_failsafe [Zero R] (s : TensorShape) : Failsafe (fun h => Tensor.ofShape h s) (Tensor.ofShapeA s : A R Tensor) := by
  have := FS.alloc (R := R) (s := s) (plain := fun out h => .ok (out, h)) (run := fun out => A.ret out)
    (fun h h1 mem out _ _ => .inr ⟨mem, rfl⟩)
  intro h mem
  have := this h mem
  have e1 : (do let (out, h) ← Tensor.ofShape h s; Except.ok (out, h) : Res (Tensor × Heap R)) = Tensor.ofShape h s := by
    cases Tensor.ofShape h s <;> rfl
  have e2 : (do let out ← Tensor.ofShapeA s; A.ret out : A R Tensor) ⟨h, mem⟩ = (Tensor.ofShapeA s : A R Tensor) ⟨h, mem⟩ := by
    simp only [Bind.bind, A.bind]
    generalize (Tensor.ofShapeA s : A R Tensor) ⟨h, mem⟩ = x
    obtain ⟨e, st⟩ := x
    cases e <;> rfl
  simp only [e1, e2] at this
  exact this

theorem gaussianLoop_spec {h : Heap R} (draws : Nat → R) (n : Nat) : ∀ (i : Nat) (h1 : Heap R) (mem : Nat → Bool), OneMore h h1 →
    (∃ h' mem', Tensor.gaussianLoopA (some h.blocks.length) draws n i ⟨h1, mem⟩ = (.bad, ⟨h', mem'⟩) ∧ OneMore h h' ∧ ∃ n, mem n = false) ∨
      match Tensor.fillLoop (some h.blocks.length) draws n i h1 with
      | .ok h' => ∃ mem', Tensor.gaussianLoopA (some h.blocks.length) draws n i ⟨h1, mem⟩ = (.ret (), ⟨h', mem'⟩)
      | .error s => ∃ st', Tensor.gaussianLoopA (some h.blocks.length) draws n i ⟨h1, mem⟩ = (.stop s, st') := by
  induction n with
  | zero =>
    intro i h1 mem H
    cases h0 : mem 0 with
    | false => exact .inl ⟨h1, fun n => mem (n + 1), by simp [Tensor.gaussianLoopA, A.ask, h0], H, 0, h0⟩
    | true => exact .inr ⟨fun n => mem (n + 1), by simp [Tensor.gaussianLoopA, A.ask, h0]⟩
  | succ n ih =>
    intro i h1 mem H
    cases h0 : mem 0 with
    | false =>
      exact .inl ⟨h1, fun n => mem (n + 1), by simp [Tensor.gaussianLoopA, Bind.bind, A.bind, A.ask, h0], H, 0, h0⟩
    | true =>
      cases hw : h1.write (some h.blocks.length) i (draws i) with
      | error e =>
        right
        simp only [Tensor.fillLoop, hw]
        exact ⟨⟨h1, fun n => mem (n + 1)⟩, by simp [Tensor.gaussianLoopA, Bind.bind, A.bind, A.ask, h0, A.onHeap, hw]⟩
      | ok h2 =>
        have he : Tensor.gaussianLoopA (some h.blocks.length) draws (n + 1) i ⟨h1, mem⟩ =
            Tensor.gaussianLoopA (some h.blocks.length) draws n (i + 1) ⟨h2, fun n => mem (n + 1)⟩ := by
          simp [Tensor.gaussianLoopA, Bind.bind, A.bind, A.ask, h0, A.onHeap, hw]
        rw [he]
        simp only [Tensor.fillLoop, hw, ok_bind]
        rcases ih (i + 1) h2 (fun n => mem (n + 1)) (H.write hw) with ⟨h', m', a, b, k, hk⟩ | r
        · exact .inl ⟨h', m', a, b, k + 1, hk⟩
        · exact .inr r

theorem gaussian_failsafe [Zero R] (s : TensorShape) (draws : Nat → R) :
    Failsafe (fun h => Tensor.gaussian h s draws) (Tensor.gaussianA s draws) := by
  refine FS.alloc (R := R) (s := s) (plain := fun out h => do let n ← out.chunkAt 0; let h ← Tensor.fillLoop out.data draws n.toNat 0 h; pure (out, h))
    (run := fun out => A.local' out do let n ← A.res (out.chunkAt 0); Tensor.gaussianLoopA out.data draws n.toNat 0; A.ret out) ?_
  intro h h1 mem out H ho
  cases hc : out.chunkAt 0 with
  | error e => exact .inr ⟨⟨h1, mem⟩, by simp [A.local', Bind.bind, A.bind, A.res]⟩
  | ok n =>
    simp only [ho, ok_bind]
    rcases gaussianLoop_spec draws n.toNat 0 h1 mem H with ⟨h', m', hr, H', k, hk⟩ | r
    · obtain ⟨h'', hd, hcl⟩ := H'.destroy ho
      exact .inl ⟨h'', m', by simp [A.local', Bind.bind, A.bind, A.res, hr, hd], hcl, k, hk⟩
    · right
      cases hf : Tensor.fillLoop (some h.blocks.length) draws n.toNat 0 h1 with
      | error e =>
        simp only [hf] at r
        obtain ⟨st', hr⟩ := r
        exact ⟨st', by simp [A.local', Bind.bind, A.bind, A.res, hr]⟩
      | ok h2 =>
        simp only [hf] at r
        obtain ⟨m', hr⟩ := r
        exact ⟨m', by simp [A.local', Bind.bind, A.bind, A.res, hr, A.ret]⟩

theorem copyCtor_failsafe [Zero R] (src : Tensor) : Failsafe (fun h => Tensor.copyCtor h src) (Tensor.copyCtorA src : A R Tensor) := by
  have key : Failsafe (fun h => do
        let s ← copyShape src.shape
        let n ← s.chunkAt 0
        let h' ← copyLoop (some h.blocks.length) src.data n.toNat 0 ⟨h.blocks ++ [⟨List.replicate n.toNat (some 0), true, true⟩]⟩
        pure ((⟨s, some h.blocks.length⟩ : Tensor), h'))
      (do
        A.ask
        let s ← A.res (copyShape src.shape)
        let n ← A.res (s.chunkAt 0)
        A.ask
        let p ← (fun st => (.ret st.heap.blocks.length, { st with heap := ⟨st.heap.blocks ++ [⟨List.replicate n.toNat (some 0), true, true⟩]⟩ }) : A R Nat)
        A.onHeap (copyLoop (some p) src.data n.toNat 0)
        A.ret ⟨s, some p⟩) := by
    refine FS.ask (FS.res fun s _ => FS.res fun n _ => FS.ask ?_)
    intro h mem
    right
    dsimp only
    cases hc : copyLoop (some h.blocks.length) src.data n.toNat 0 ⟨h.blocks ++ [⟨List.replicate n.toNat (some 0), true, true⟩]⟩ with
    | error e => exact ⟨⟨_, mem⟩, by simp [Bind.bind, A.bind, A.onHeap, hc]; rfl⟩
    | ok h2 => exact ⟨mem, by simp [Bind.bind, A.bind, A.onHeap, hc]; rfl⟩
  intro h mem
  have := key h mem
  have e2 : (Tensor.copyCtorA src : A R Tensor) = (do
        A.ask
        let s ← A.res (copyShape src.shape)
        let n ← A.res (s.chunkAt 0)
        A.ask
        let p ← (fun st => (.ret st.heap.blocks.length, { st with heap := ⟨st.heap.blocks ++ [⟨List.replicate n.toNat (some 0), true, true⟩]⟩ }) : A R Nat)
        A.onHeap (copyLoop (some p) src.data n.toNat 0)
        A.ret ⟨s, some p⟩) := by
    funext st
    simp only [Tensor.copyCtorA, copyShapeA, mkShapeA, copyShape, Bind.bind, A.bind, A.ask, A.new, Heap.alloc]
    cases st.mem 0 with
    | false => rfl
    | true =>
      simp only [if_true]
      cases mkShape src.shape.shape with
      | error e => rfl
      | ok s =>
        simp only [A.res]
        cases s.chunkAt 0 with
        | error e => rfl
        | ok n =>
          simp only
          cases st.mem (0 + 1) <;> rfl
  rw [e2]
  exact this

theorem ofVal_failsafe (v : R) : Failsafe (fun h => Tensor.ofVal h v) (Tensor.ofValA v : A R Tensor) := by
  have key : Failsafe (fun h => do
        let s ← mkShape [0]
        pure ((⟨s, some h.blocks.length⟩ : Tensor), (⟨h.blocks ++ [⟨[some v], false, true⟩]⟩ : Heap R)))
      (do
        A.ask
        let s ← A.res (mkShape [0])
        A.ask
        let p ← (fun st => (.ret st.heap.blocks.length, { st with heap := ⟨st.heap.blocks ++ [⟨[some v], false, true⟩]⟩ }) : A R Nat)
        A.ret ⟨s, some p⟩) :=
    FS.ask (FS.res fun s _ => FS.ask fun h mem => .inr ⟨mem, rfl⟩)
  intro h mem
  have := key h mem
  have e2 : (Tensor.ofValA v : A R Tensor) = (do
        A.ask
        let s ← A.res (mkShape [0])
        A.ask
        let p ← (fun st => (.ret st.heap.blocks.length, { st with heap := ⟨st.heap.blocks ++ [⟨[some v], false, true⟩]⟩ }) : A R Nat)
        A.ret ⟨s, some p⟩) := by
    funext st
    simp only [Tensor.ofValA, mkShapeA, Bind.bind, A.bind, A.ask, A.new, Heap.alloc]
    cases st.mem 0 with
    | false => rfl
    | true =>
      simp only [if_true]
      cases mkShape [0] with
      | error e => rfl
      | ok s =>
        simp only [A.res]
        cases st.mem (0 + 1) <;> rfl
  rw [e2]
  exact this

/-- `Tensor(shape)`, `Tensor({...})`, `Tensor(value)`, the copy constructor, `Ones`, `Eyes` and `Gaussian`: whichever request for memory fails, `std::bad_alloc` leaves the call, no existing tensor has changed and nothing leaks; if none fails they do what they do otherwise. -/
theorem C110_constructors [Zero R] [One R] (s : TensorShape) (dims : List Int) (v : R) (src : Tensor) (size : Int) (draws : Nat → R) :
    Failsafe (fun h => Tensor.ofShape h s) (Tensor.ofShapeA s : A R Tensor) ∧
    Failsafe (fun h => Tensor.ofDims h dims) (Tensor.ofDimsA dims : A R Tensor) ∧
    Failsafe (fun h => Tensor.ofVal h v) (Tensor.ofValA v) ∧
    Failsafe (fun h => Tensor.copyCtor h src) (Tensor.copyCtorA src : A R Tensor) ∧
    Failsafe (fun h => Tensor.ones h s) (Tensor.onesA s : A R Tensor) ∧
    Failsafe (fun h => Tensor.eyes h size) (Tensor.eyesA size : A R Tensor) ∧
    Failsafe (fun h => Tensor.gaussian h s draws) (Tensor.gaussianA s draws) := by
  refine ⟨ofShape_failsafe s, ?_, ofVal_failsafe v, copyCtor_failsafe src, ?_, ?_, gaussian_failsafe s draws⟩
  · have := FS.ask (FS.res (r := mkShape dims) fun s _ => ofShape_failsafe (R := R) s)
    rw [← mkShapeA_bind] at this
    exact this
  · refine FS.alloc (R := R) (s := s) (plain := fun out h => do let n ← s.chunkAt 0; let h ← Tensor.fillLoop out.data (fun _ => (1 : R)) n.toNat 0 h; pure (out, h))
      (run := fun out => A.local' out do let n ← A.res (s.chunkAt 0); A.onHeap (Tensor.fillLoop out.data (fun _ => (1 : R)) n.toNat 0); A.ret out) ?_
    intro h h1 mem out H ho
    cases hc : s.chunkAt 0 with
    | error e => exact .inr ⟨⟨h1, mem⟩, by simp [A.local', Bind.bind, A.bind, A.res]⟩
    | ok n => exact FS.local_no_ask (f := Tensor.fillLoop out.data (fun _ => (1 : R)) n.toNat 0)
  · unfold Tensor.eyesA
    rw [mkShapeA_bind]
    refine FS.ask (FS.res (r := mkShape [size, size]) fun s _ => FS.alloc (R := R) (s := s) (plain := fun out h => do let h ← Tensor.eyesLoop out.data size size.toNat 0 h; pure (out, h))
      (run := fun out => A.local' out do A.onHeap (Tensor.eyesLoop out.data size size.toNat 0); A.ret out) ?_)
    intro h h1 mem out H ho
    exact FS.local_no_ask (f := Tensor.eyesLoop out.data size size.toNat 0)

/-- The same for the elementwise, broadcasting, comparing and reducing operations (`+ - * /` of two tensors and of a tensor and a number, `^`, unary minus, `exp`, `log`, `sqrt`, `==`, `equal`, `reduce_sum`, `reduce_mean`, `argmax`, `argmin`). -/
theorem C110_operations [Zero R] [Add R] (f : R → R → R) (g : R → Option R) (g2 : R → R → Option R) (fin : R → Int → R) (better : R → R → Bool)
    (pre : Res Unit) (σ : Sched) (t1 t2 : Tensor) (axis : Int) :
    Failsafe (fun h => broadcastOp f σ h t1 t2) (broadcastCode f σ t1 t2).runA ∧
    Failsafe (fun h => do pre; mapOp g σ h t1) (mapCode pre g σ t1).runA ∧
    Failsafe (fun h => do pre; zipLoop g2 σ h t1 t2) (zipCode pre g2 σ t1 t2).runA ∧
    Failsafe (fun h => reduceAxis fin σ h t1 axis) (reduceCode fin σ t1 axis).runA ∧
    Failsafe (fun h => argAxis better σ h t1 axis) (argCode better σ t1 axis).runA := by
  refine ⟨?_, ?_, ?_, ?_, ?_⟩
  · simp only [broadcastCode_plain]; exact OpCode.failsafe _
  · simp only [mapCode_plain]; exact OpCode.failsafe _
  · simp only [zipCode_plain]; exact OpCode.failsafe _
  · simp only [reduceCode_plain]; exact OpCode.failsafe _
  · simp only [argCode_plain]; exact OpCode.failsafe _

/-! ## `operator%` -/

/-- Which blocks are alive, and which are arrays, is the same. -/
def SameFlags (h h' : Heap R) : Prop :=
  ∀ p : Nat, (h'.blocks[p]?).map (fun b : Block R => (b.live, b.isArray)) = (h.blocks[p]?).map (fun b : Block R => (b.live, b.isArray))

theorem write_flags {h h' : Heap R} {p : Ptr} {i : Int} {v : R} (hw : h.write p i v = .ok h') : SameFlags h h' := by
  unfold Heap.write at hw
  obtain ⟨⟨q', k⟩, ha, hr⟩ := bind_ok hw
  cases hr
  intro j
  simp only [Heap.poke, List.getElem?_modify]
  cases h.blocks[j]? with
  | none => rfl
  | some b => by_cases hj : q' = j <;> simp [hj]

theorem step_flags {h h' : Heap R} {th : Thread R} {a : Option Acc} {r : Option (Thread R)} (hs : th.step h = .ok (h', a, r)) : SameFlags h h' := by
  unfold Thread.step at hs
  split at hs
  · obtain ⟨⟨q', k⟩, ha, hr⟩ := bind_ok hs
    obtain ⟨v, hv, hr⟩ := bind_ok hr
    cases hr
    exact fun _ => rfl
  · split at hs
    · cases hs; exact fun _ => rfl
    · obtain ⟨⟨q', k⟩, ha, hr⟩ := bind_ok hs
      obtain ⟨h1, hv, hr⟩ := bind_ok hr
      cases hr
      exact write_flags hv

theorem runThreads_flags (σ : Sched) (fuel : Nat) : ∀ (s : Nat) (h h' : Heap R) (log : List Acc) (ths : List (Thread R)),
    runThreads σ fuel s h log ths = .ok h' → SameFlags h h' := by
  induction fuel with
  | zero =>
    intro s h h' log ths hr
    cases ths with
    | nil => simp [runThreads] at hr; subst hr; exact fun _ => rfl
    | cons th ths => simp [runThreads] at hr
  | succ fuel ih =>
    intro s h h' log ths hr
    cases ths with
    | nil => simp [runThreads] at hr; subst hr; exact fun _ => rfl
    | cons th0 ths0 =>
      unfold runThreads at hr
      simp only at hr
      generalize σ s % (th0 :: ths0).length = k at hr
      generalize th0 :: ths0 = all at *
      split at hr
      · cases hr
      · obtain ⟨⟨h1, a, r⟩, hs, hr⟩ := bind_ok hr
        have o1 := step_flags hs
        simp only at hr
        split at hr
        · cases hr
        · split at hr
          · exact fun p => (ih _ _ _ _ _ hr p).trans (o1 p)
          · exact fun p => (ih _ _ _ _ _ hr p).trans (o1 p)

theorem parFor_flags {σ : Sched} {h h' : Heap R} {n : Int} {body : Int → Res (Iter R)} (hr : parFor σ h n body = .ok h') : SameFlags h h' := by
  unfold parFor at hr
  obtain ⟨its, hits, hr⟩ := bind_ok hr
  exact runThreads_flags _ _ _ _ _ _ _ hr

theorem matmulLoop_flags [Zero R] [Add R] [Mul R] {σ : Nat → Sched} {t1 t2 out : Tensor} {k n : Int}
    (todo : Nat) : ∀ (i : Nat) (h h' : Heap R), matmulLoop σ t1 t2 out k n todo i h = .ok h' → SameFlags h h' := by
  induction todo with
  | zero => intro i h h' he; cases he; exact fun _ => rfl
  | succ todo ih =>
    intro i h h' he
    unfold matmulLoop at he
    obtain ⟨h1, hp, he⟩ := bind_ok he
    exact fun p => (ih _ _ _ he p).trans (parFor_flags hp p)

theorem OneMore.of {h h1 h2 : Heap R} (H : OneMore h h1) (ho : OnlyBlock h.blocks.length h1 h2) (hf : SameFlags h1 h2) : OneMore h h2 := by
  obtain ⟨b, hb, hl, ha⟩ := H
  have hlen : h2.blocks.length = h.blocks.length + 1 := by rw [ho.1, hb]; simp
  have hq : h.blocks.length < h2.blocks.length := by omega
  have hfq := hf h.blocks.length
  rw [hb, List.getElem?_eq_getElem hq] at hfq
  simp at hfq
  refine ⟨h2.blocks[h.blocks.length], ?_, by rw [hfq.1, hl], by rw [hfq.2, ha]⟩
  apply List.ext_getElem?
  intro j
  rcases Nat.lt_trichotomy j h.blocks.length with hj | hj | hj
  · rw [ho.2 j (by omega), hb, List.getElem?_append_left hj, List.getElem?_append_left hj]
  · subst hj; simp [hq]
  · rw [List.getElem?_eq_none (by omega), List.getElem?_eq_none (by simp; omega)]

theorem OneMore.destroy_clean {h h1 h2 : Heap R} (H : OneMore h h1) (hc : Clean h1 h2) {t : Tensor} (ht : t.data = some h.blocks.length) :
    ∃ h'', t.destroy h2 = .ok h'' ∧ Clean h h'' := by
  obtain ⟨b, hb, hl, ha⟩ := H
  obtain ⟨bs, hbs, hd⟩ := hc
  refine ⟨⟨h2.blocks.set h.blocks.length { b with live := false }⟩, ?_, ?_⟩
  · simp [Tensor.destroy, ht, Heap.deleteArr, hbs, hb, hl, ha]
  · refine ⟨{ b with live := false } :: bs, ?_, ?_⟩
    · simp only [hbs, hb]
      simp
    · intro c hcm
      rcases List.mem_cons.mp hcm with rfl | hcm
      · rfl
      · exact hd c hcm

/-- `shape_ = ...` with requests that may fail does not touch the heap of elements. -/
theorem assignShapeA_spec (old s : TensorShape) (h : Heap R) (mem : Nat → Bool) :
    ∃ e s' k, assignShapeA old s (⟨h, mem⟩ : St R) = (e, s', ⟨h, fun n => mem (n + k)⟩) ∧
      ((e = .bad ∧ ∃ n, mem n = false) ∨ (e = .ret () ∧ assignShape old s = .ok s') ∨ ∃ x, e = .stop x ∧ assignShape old s = .error x) := by
  rcases Bool.eq_false_or_eq_true (mem 0) with h0 | h0
  · cases hm : mkShape s.shape with
    | error e =>
      exact ⟨.stop e, old, 1, by simp [assignShapeA, copyShapeA, mkShapeA, Bind.bind, A.bind, A.ask, h0, A.res, hm],
        .inr (.inr ⟨e, rfl, by simp [assignShape, copyShape, hm]⟩)⟩
    | ok t =>
      have he : assignShapeA old s (⟨h, mem⟩ : St R) = assignVectors old t ⟨h, fun n => mem (n + 1)⟩ := by
        simp [assignShapeA, copyShapeA, mkShapeA, Bind.bind, A.bind, A.ask, h0, A.res, hm]
      have hp : assignShape old s = .ok ⟨t.shape, t.chunk⟩ := by simp [assignShape, copyShape, hm]
      rw [he, hp]
      unfold assignVectors
      by_cases c1 : old.shape.length < t.shape.length
      · rcases Bool.eq_false_or_eq_true (mem 1) with h1 | h1
        · by_cases c2 : old.chunk.length < t.chunk.length
          · rcases Bool.eq_false_or_eq_true (mem 2) with h2 | h2
            · exact ⟨.ret (), ⟨t.shape, t.chunk⟩, 3, by simp [c1, c2, A.ask, h1, h2], .inr (.inl ⟨rfl, rfl⟩)⟩
            · exact ⟨.bad, ⟨t.shape, old.chunk⟩, 3, by simp [c1, c2, A.ask, h1, h2], .inl ⟨rfl, 2, h2⟩⟩
          · exact ⟨.ret (), ⟨t.shape, t.chunk⟩, 2, by simp [c1, c2, A.ask, A.ret, h1], .inr (.inl ⟨rfl, rfl⟩)⟩
        · exact ⟨.bad, old, 2, by simp [c1, A.ask, h1], .inl ⟨rfl, 1, h1⟩⟩
      · by_cases c2 : old.chunk.length < t.chunk.length
        · rcases Bool.eq_false_or_eq_true (mem 1) with h2 | h2
          · exact ⟨.ret (), ⟨t.shape, t.chunk⟩, 2, by simp [c1, c2, A.ask, A.ret, h2], .inr (.inl ⟨rfl, rfl⟩)⟩
          · exact ⟨.bad, ⟨t.shape, old.chunk⟩, 2, by simp [c1, c2, A.ask, A.ret, h2], .inl ⟨rfl, 1, h2⟩⟩
        · exact ⟨.ret (), ⟨t.shape, t.chunk⟩, 1, by simp [c1, c2, A.ret], .inr (.inl ⟨rfl, rfl⟩)⟩
  · exact ⟨.bad, old, 1, by simp [assignShapeA, copyShapeA, mkShapeA, Bind.bind, A.bind, A.ask, h0], .inl ⟨rfl, 0, h0⟩⟩

/-- What follows `Tensor<DType>(TensorShape({m, n}))` in `operator%`. -/
def matmulRest [Zero R] [Add R] [Mul R] (σ : Nat → Sched) (t1 t2 out : Tensor) (m k n : Int) (tmp : Tensor) : A R Tensor := fun st =>
  match (match Tensor.moveAssignA out tmp st with
      | (e, out', tmp', st) =>
        match tmp'.destroy st.heap with
        | .ok h => (e, out', { st with heap := h })
        | .error s => (.stop s, out', st) : End Unit × Tensor × St R) with
  | (.bad, out, st) =>
    match out.destroy st.heap with
    | .ok h => (.bad, { st with heap := h })
    | .error s => (.stop s, st)
  | (.stop s, _, st) => (.stop s, st)
  | (.ret _, out, st) =>
    match (do A.onHeap (matmulLoop σ t1 t2 out k n m.toNat 0); Tensor.copyCtorA out : A R Tensor) st with
    | (.ret r, st) =>
      match r.destroy st.heap with
      | .ok h => (.ret out, { st with heap := h })
      | .error s => (.stop s, st)
    | (.bad, st) =>
      match out.destroy st.heap with
      | .ok h => (.bad, { st with heap := h })
      | .error s => (.stop s, st)
    | (.stop s, st) => (.stop s, st)

theorem matmulOpA_eq [Zero R] [Add R] [Mul R] (σ : Nat → Sched) (t1 t2 : Tensor) :
    (matmulOpA σ t1 t2 : A R Tensor) = (do
      A.ask
      let s ← A.res (mkShape [0])
      A.ask
      let mkn ← A.res (do matmulCheck t1 t2; let m ← t1.shapeAt 0; let k ← t1.shapeAt 1; let n ← t2.shapeAt 1; pure (m, k, n))
      A.ask
      let s' ← A.res (mkShape [mkn.1, mkn.2.2])
      let tmp ← Tensor.ofShapeA s'
      matmulRest σ t1 t2 ⟨s, none⟩ mkn.1 mkn.2.1 mkn.2.2 tmp) := by
  funext st
  simp only [matmulOpA, Tensor.mkDefaultA, mkShapeA, Bind.bind, A.bind, A.ask]
  cases st.mem 0 with
  | false => rfl
  | true =>
    simp only [if_true, A.res]
    cases mkShape [0] with
    | error e => rfl
    | ok s =>
      simp only [A.ret, matmulA, Bind.bind, A.bind, A.ask]
      cases st.mem (0 + 1) with
      | false => rfl
      | true =>
        simp only [if_true, A.res]
        generalize (Except.bind (matmulCheck t1 t2) fun _ => Except.bind (t1.shapeAt 0) fun m => Except.bind (t1.shapeAt 1) fun k =>
          Except.bind (t2.shapeAt 1) fun n => pure (m, k, n) : Res (Int × Int × Int)) = x
        cases x with
        | error e => rfl
        | ok mkn =>
          obtain ⟨m, k, n⟩ := mkn
          simp only [matmulPrepareA, pure_eq_ok, mkShapeA, Bind.bind, A.bind, A.ask]
          cases st.mem (0 + 1 + 1) with
          | false => rfl
          | true =>
            simp only [if_true, A.res]
            cases mkShape [m, n] with
            | error e => rfl
            | ok s' =>
              simp only
              generalize (Tensor.ofShapeA s' : A R Tensor) _ = y
              obtain ⟨e, st'⟩ := y
              cases e with
              | bad => rfl
              | stop x => rfl
              | ret tmp =>
                simp only [matmulRest]
                generalize Tensor.moveAssignA _ tmp st' = z
                obtain ⟨e, o', t', st2⟩ := z
                simp only
                generalize t'.destroy st2.heap = w
                cases w with
                | error x => rfl
                | ok h2 =>
                  cases e with
                  | bad => rfl
                  | stop x => rfl
                  | ret u =>
                    cases hm : matmulLoop σ t1 t2 o' k n m.toNat 0 h2 with
                    | error x => simp [Bind.bind, A.bind, A.onHeap, hm]
                    | ok h3 =>
                      simp only [Bind.bind, A.bind, A.onHeap, hm]
                      generalize (Tensor.copyCtorA o' : A R Tensor) _ = v
                      obtain ⟨e, st4⟩ := v
                      cases e <;> rfl

theorem matmulOp_eq [Zero R] [Add R] [Mul R] (σ : Nat → Sched) (h : Heap R) (t1 t2 : Tensor) :
    matmulOp σ h t1 t2 = (do
      let s ← mkShape [0]
      let mkn ← (do matmulCheck t1 t2; let m ← t1.shapeAt 0; let k ← t1.shapeAt 1; let n ← t2.shapeAt 1; pure (m, k, n) : Res (Int × Int × Int))
      let s' ← mkShape [mkn.1, mkn.2.2]
      let (tmp, h) ← Tensor.ofShape h s'
      let s'' ← assignShape s tmp.shape
      let h ← matmulLoop σ t1 t2 ⟨s'', tmp.data⟩ mkn.2.1 mkn.2.2 mkn.1.toNat 0 h
      let (r, h) ← Tensor.copyCtor h ⟨s'', tmp.data⟩
      let h ← r.destroy h
      pure (⟨s'', tmp.data⟩, h)) := by
  simp only [matmulOp, Tensor.mkDefault, matmul, matmulPrepare, Tensor.moveAssign, Tensor.destroy, bind_assoc, pure_bind, ok_bind, pure_eq_ok, if_true]

theorem matmulRest_spec [Zero R] [Add R] [Mul R] (σ : Nat → Sched) (t1 t2 : Tensor) (s : TensorShape) (m k n : Int) (h h1 : Heap R) (mem : Nat → Bool)
    (tmp : Tensor) (H : OneMore h h1) (ht : tmp.data = some h.blocks.length) :
    (∃ h' mem', matmulRest σ t1 t2 ⟨s, none⟩ m k n tmp ⟨h1, mem⟩ = (.bad, ⟨h', mem'⟩) ∧ Clean h h' ∧ ∃ n, mem n = false) ∨
      Agrees (do
        let s'' ← assignShape s tmp.shape
        let h ← matmulLoop σ t1 t2 ⟨s'', tmp.data⟩ k n m.toNat 0 h1
        let (r, h) ← Tensor.copyCtor h ⟨s'', tmp.data⟩
        let h ← r.destroy h
        pure (⟨s'', tmp.data⟩, h)) (matmulRest σ t1 t2 ⟨s, none⟩ m k n tmp ⟨h1, mem⟩) := by
  obtain ⟨e, s', j, he, hcase⟩ := assignShapeA_spec s tmp.shape h1 mem
  rcases hcase with ⟨rfl, n', hn⟩ | ⟨rfl, hs⟩ | ⟨x, rfl, hs⟩
  · obtain ⟨h'', hd, hc⟩ := H.destroy (t := ⟨s', tmp.data⟩) ht
    left
    refine ⟨h'', fun n => mem (n + j), ?_, hc, n', hn⟩
    simp only [matmulRest, Tensor.moveAssignA, he]
    simp [Tensor.destroy] at hd
    simp [Tensor.destroy, hd]
  · rw [hs]
    simp only [ok_bind]
    cases hm : matmulLoop σ t1 t2 ⟨s', tmp.data⟩ k n m.toNat 0 h1 with
    | error x =>
      right
      refine ⟨⟨h1, fun n => mem (n + j)⟩, ?_⟩
      simp [matmulRest, Tensor.moveAssignA, he, Tensor.destroy, Bind.bind, A.bind, A.onHeap, hm]
    | ok h2 =>
      have H2 : OneMore h h2 := H.of (matmulLoop_only (out := ⟨s', tmp.data⟩) ht _ _ _ _ hm) (matmulLoop_flags _ _ _ _ hm)
      simp only [ok_bind]
      rcases copyCtor_failsafe ⟨s', tmp.data⟩ h2 (fun n => mem (n + j)) with ⟨h', m', hr, hc, n', hn⟩ | hr
      · obtain ⟨h'', hd, hc⟩ := H2.destroy_clean hc (t := ⟨s', tmp.data⟩) ht
        left
        refine ⟨h'', m', ?_, hc, n' + j, hn⟩
        simp [Tensor.destroy] at hd
        simp [matmulRest, Tensor.moveAssignA, he, Tensor.destroy, Bind.bind, A.bind, A.onHeap, hm, hr, hd]
      · right
        cases hcc : Tensor.copyCtor h2 ⟨s', tmp.data⟩ with
        | error x =>
          simp only [hcc] at hr
          obtain ⟨st', hr⟩ := hr
          refine ⟨st', ?_⟩
          simp [matmulRest, Tensor.moveAssignA, he, Tensor.destroy, Bind.bind, A.bind, A.onHeap, hm, hr]
        | ok rh =>
          obtain ⟨r, h3⟩ := rh
          simp only [hcc] at hr
          obtain ⟨m', hr⟩ := hr
          simp only [ok_bind]
          cases hd : r.destroy h3 with
          | error x =>
            refine ⟨⟨h3, m'⟩, ?_⟩
            simp only [matmulRest, Tensor.moveAssignA, he, Tensor.destroy, Bind.bind, A.bind, A.onHeap, hm, hr]
            simp only [Tensor.destroy] at hd
            simp only [hd]
          | ok h4 =>
            refine ⟨m', ?_⟩
            simp only [matmulRest, Tensor.moveAssignA, he, Tensor.destroy, Bind.bind, A.bind, A.onHeap, hm, hr]
            simp only [Tensor.destroy] at hd
            simp only [hd]
  · right
    rw [hs]
    refine ⟨⟨h1, fun n => mem (n + j)⟩, ?_⟩
    simp [matmulRest, Tensor.moveAssignA, he, Tensor.destroy]

/-- The same for `t1 % t2`. -/
theorem C110_matmul [Zero R] [Add R] [Mul R] (σ : Nat → Sched) (t1 t2 : Tensor) :
    Failsafe (fun h => matmulOp σ h t1 t2) (matmulOpA σ t1 t2 : A R Tensor) := by
  simp only [matmulOp_eq]
  rw [matmulOpA_eq]
  refine FS.ask (FS.res fun s _ => FS.ask (FS.res fun mkn _ => FS.ask (FS.res fun s' _ => ?_)))
  exact FS.alloc (R := R) (s := s') (plain := fun tmp h => do
      let s'' ← assignShape s tmp.shape
      let h ← matmulLoop σ t1 t2 ⟨s'', tmp.data⟩ mkn.2.1 mkn.2.2 mkn.1.toNat 0 h
      let (r, h) ← Tensor.copyCtor h ⟨s'', tmp.data⟩
      let h ← r.destroy h
      pure (⟨s'', tmp.data⟩, h)) (run := fun tmp => matmulRest σ t1 t2 ⟨s, none⟩ mkn.1 mkn.2.1 mkn.2.2 tmp)
    fun h h1 mem tmp H ht => matmulRest_spec σ t1 t2 s _ _ _ h h1 mem tmp H ht

/-! ## Assignment, move and `Reshape` -/

theorem assignShapeA_fits (old s : TensorShape) (dims : List Int) (hs : mkShape dims = .ok s) (h1 : s.shape.length ≤ old.shape.length)
    (h2 : s.chunk.length ≤ old.chunk.length) (h : Heap R) (mem : Nat → Bool) :
    assignShapeA old s ⟨h, mem⟩ = if mem 0 then (.ret (), s, ⟨h, fun n => mem (n + 1)⟩) else (.bad, old, ⟨h, fun n => mem (n + 1)⟩) := by
  have hm : mkShape s.shape = .ok s := copyShape_mk hs
  cases h0 : mem 0 with
  | false => simp [assignShapeA, copyShapeA, mkShapeA, Bind.bind, A.bind, A.ask, h0]
  | true =>
    simp [assignShapeA, copyShapeA, mkShapeA, Bind.bind, A.bind, A.ask, h0, A.res, hm, assignVectors, A.ret, Nat.not_lt.mpr h1, Nat.not_lt.mpr h2]

theorem mkShape_chunk_length {dims : List Int} {s : TensorShape} (h : mkShape dims = .ok s) : s.chunk.length = dims.length := by
  obtain ⟨hv, hf⟩ := mkShape_ok_imp h
  subst hf
  simp only [shapeOf]
  split <;> simp [sufProds_length]

/-- **Copy assignment**, the case in which it is right at all (C07): target and source have the same number of elements, and the source has no more dimensions. Either the target becomes equal to the source, or `std::bad_alloc` leaves the call; then the target has kept its shape, but already holds the elements of the source. No other buffer changes, and nothing leaks. -/
theorem C110_assign_partial [Zero R] (h : Heap R) (mem : Nat → Bool) (dst src : Tensor) (p q : Nat) (d1 d2 : List Int) (v1 v2 : List R)
    (H1 : HoldsAt h dst p d1 v1) (H2 : HoldsAt h src q d2 v2) (hpq : p ≠ q) (hn : numel d1 = numel d2) (hr : d2.length ≤ d1.length) :
    ∃ e t h' mem', Tensor.copyAssignA dst src ⟨h, mem⟩ = (e, t, ⟨h', mem'⟩) ∧
      ((e = .ret () ∧ mem 0 = true ∧ HoldsAt h' t p d2 v2) ∨ (e = .bad ∧ mem 0 = false ∧ HoldsAt h' t p d1 v2)) ∧
      h'.blocks.length = h.blocks.length ∧ ∀ r, r ≠ p → h'.blocks[r]? = h.blocks[r]? := by
  obtain ⟨h1, h2, h3, arr, h4⟩ := H1
  have hplt : p < h.blocks.length := by rw [List.getElem?_eq_some_iff] at h4; exact h4.1
  have hc1 : dst.chunkAt 0 = .ok (numel d1 : Int) := mkShape_chunk0 h1
  have hc2 : src.chunkAt 0 = .ok (numel d2 : Int) := mkShape_chunk0 H2.1
  have hcopy : copyLoop (some p) src.data (numel d1) 0 h = .ok ⟨h.blocks.set p ⟨v2.map some, arr, true⟩⟩ := by
    have := copyLoop_ok h4 rfl src.data v2 (numel d1) (by simp [h2]) (by rw [H2.2.1, hn])
      (by rw [H2.2.2.1]; intro hh; cases hh; exact hpq rfl) (fun j hj => Holds.read_block H2 rfl j hj)
    rw [this]
    have e1 : v2.take (numel d1) = v2 := by rw [hn, ← H2.2.1, List.take_length]
    simp [e1, List.drop_eq_nil_of_le (show (v1.map some).length ≤ numel d1 by simp [h2])]
  have hA : Tensor.assignBufferA dst src (⟨h, mem⟩ : St R) = (.ret (), some p, ⟨h, mem⟩) := by
    simp [Tensor.assignBufferA, hc1, hc2, h3, hn]
  have hrun : Tensor.copyAssignA dst src (⟨h, mem⟩ : St R) =
      match assignShapeA dst.shape src.shape (⟨⟨h.blocks.set p ⟨v2.map some, arr, true⟩⟩, mem⟩ : St R) with
      | (e, s, st) => (e, ⟨s, some p⟩, st) := by
    simp only [Tensor.copyAssignA, hA, hc1, ok_bind, Int.toNat_natCast, hcopy]
  have hfit := assignShapeA_fits dst.shape src.shape d2 H2.1 (by rw [mkShape_shape H2.1, mkShape_shape h1]; exact hr)
    (by rw [mkShape_chunk_length H2.1, mkShape_chunk_length h1]; exact hr) (⟨h.blocks.set p ⟨v2.map some, arr, true⟩⟩ : Heap R) mem
  rw [hrun, hfit]
  cases h0 : mem 0 with
  | true =>
    refine ⟨_, _, _, _, rfl, .inl ⟨rfl, rfl, H2.1, H2.2.1, rfl, arr, by simp [hplt]⟩, by simp, fun r hr => by simp [Ne.symm hr]⟩
  | false =>
    refine ⟨_, _, _, _, rfl, .inr ⟨rfl, rfl, h1, by rw [H2.2.1, hn], rfl, arr, by simp [hplt]⟩, by simp, fun r hr => by simp [Ne.symm hr]⟩

/-- **Copy assignment is not safe if the buffer must grow**: if `new` fails, the target keeps the pointer to the buffer it has just released: its elements can no longer be read, and its destructor releases the buffer a second time. -/
theorem C110_assign_refuted [Zero R] (h : Heap R) (mem : Nat → Bool) (dst src : Tensor) (p q : Nat) (d1 d2 : List Int) (v1 v2 : List R)
    (hd : mkShape d1 = .ok dst.shape) (hdp : dst.data = some p) (hb : h.blocks[p]? = some ⟨v1.map some, true, true⟩)
    (H2 : HoldsAt h src q d2 v2) (hn : numel d1 < numel d2) (hmem : mem 0 = false) :
    ∃ t h' mem', Tensor.copyAssignA dst src ⟨h, mem⟩ = (.bad, t, ⟨h', mem'⟩) ∧ t.shape = dst.shape ∧
      t.get h' 0 = .error (.ub .useAfterFree) ∧ t.destroy h' = .error (.ub .doubleFree) := by
  have hplt : p < h.blocks.length := by rw [List.getElem?_eq_some_iff] at hb; exact hb.1
  have hc1 : dst.chunkAt 0 = .ok (numel d1 : Int) := mkShape_chunk0 hd
  have hc2 : src.chunkAt 0 = .ok (numel d2 : Int) := mkShape_chunk0 H2.1
  have hlt : (numel d1 : Int) < (numel d2 : Int) := by exact_mod_cast hn
  refine ⟨⟨dst.shape, some p⟩, ⟨h.blocks.set p ⟨v1.map some, true, false⟩⟩, fun n => mem (n + 1), ?_, rfl, ?_, ?_⟩
  · simp [Tensor.copyAssignA, Tensor.assignBufferA, hc1, hc2, hdp, hlt, Heap.deleteArr, hb, A.new, A.bind, A.ask, hmem]
  · simp [Tensor.get, Heap.read, Heap.access, hplt]
  · simp [Tensor.destroy, Heap.deleteArr, hplt]

/-- **The move constructor leaks**: if the last of its three requests fails, the buffer it has allocated is not released and belongs to nobody. -/
theorem C110_move_ctor_refuted [Zero R] (h : Heap R) (mem : Nat → Bool) (src : Tensor) (q : Nat) (dims : List Int) (v : List R)
    (H : HoldsAt h src q dims v) (h0 : mem 0 = true) (h1 : mem 1 = true) (h2 : mem 2 = false) :
    ∃ mem', Tensor.moveCtorA src ⟨h, mem⟩ = (.bad, ⟨⟨h.blocks ++ [⟨v.map some, true, true⟩]⟩, mem'⟩) ∧
      ¬ Clean h ⟨h.blocks ++ [⟨v.map some, true, true⟩]⟩ := by
  obtain ⟨hs, hl, hp, arr, hb⟩ := H
  have hm : mkShape src.shape.shape = .ok src.shape := copyShape_mk hs
  have hc : src.chunkAt 0 = .ok (numel dims : Int) := mkShape_chunk0 hs
  have hqlt : q < h.blocks.length := by rw [List.getElem?_eq_some_iff] at hb; exact hb.1
  have hcopy : copyLoop (some h.blocks.length) src.data (numel dims) 0 ⟨h.blocks ++ [⟨List.replicate (numel dims) (some 0), true, true⟩]⟩ =
      .ok (⟨h.blocks ++ [⟨v.map some, true, true⟩]⟩ : Heap R) := by
    have hb' : (⟨h.blocks ++ [⟨List.replicate (numel dims) (some 0), true, true⟩]⟩ : Heap R).blocks[h.blocks.length]? =
        some ⟨List.replicate (numel dims) (some 0), true, true⟩ := by simp
    have Hq : HoldsAt (⟨h.blocks ++ [⟨List.replicate (numel dims) (some 0), true, true⟩]⟩ : Heap R) src q dims v :=
      ⟨hs, hl, hp, arr, by rw [List.getElem?_append_left hqlt]; exact hb⟩
    rw [copyLoop_ok hb' rfl src.data v (numel dims) (by simp) (by omega) (by rw [hp]; intro hh; cases hh; omega)
      (fun j hj => Holds.read_block Hq rfl j hj)]
    have e1 : v.take (numel dims) = v := by rw [← hl, List.take_length]
    simp [e1]
  refine ⟨fun n => mem (n + 3), ?_, ?_⟩
  · have hc' : (⟨src.shape, none⟩ : Tensor).chunkAt 0 = .ok (numel dims : Int) := hc
    simp [Tensor.moveCtorA, copyShapeA, mkShapeA, Bind.bind, A.bind, A.ask, h0, A.res, hm, Tensor.copyAssignA, Tensor.assignBufferA, hc, hc', A.new, h1,
      Heap.alloc, assignShapeA, h2]
    simp [Except.bind, hcopy]
  · rintro ⟨bs, hbs, hd⟩
    have := List.append_cancel_left hbs
    have := hd ⟨v.map some, true, true⟩ (by rw [← this]; simp)
    cases this

/-- **Move assignment is not safe**: if the first request fails, the target already has the buffer of the source, but still its own old shape: if that has more elements, reading one of them is out of bounds. The source has lost its buffer. -/
theorem C110_move_assign_refuted (h : Heap R) (mem : Nat → Bool) (dst src : Tensor) (q : Nat) (d1 d2 : List Int) (v2 : List R)
    (H1 : mkShape d1 = .ok dst.shape) (H2 : HoldsAt h src q d2 v2) (hn : numel d2 < numel d1) (hmem : mem 0 = false) :
    ∃ t s mem', Tensor.moveAssignA dst src ⟨h, mem⟩ = (.bad, t, s, ⟨h, mem'⟩) ∧ t.chunkAt 0 = .ok (numel d1 : Int) ∧
      t.get h (numel d2) = .error (.ub .outOfBounds) ∧ s.data = none := by
  obtain ⟨hs, hl, hp, arr, hb⟩ := H2
  refine ⟨⟨dst.shape, src.data⟩, ⟨src.shape, none⟩, fun n => mem (n + 1), ?_, mkShape_chunk0 H1, ?_, rfl⟩
  · simp [Tensor.moveAssignA, assignShapeA, copyShapeA, mkShapeA, Bind.bind, A.bind, A.ask, hmem]
  · simp [Tensor.get, Heap.read, Heap.access, hp, hb, hl]

/-- **`Reshape`** to no more dimensions: the tensor has the new shape, or `std::bad_alloc` leaves the call and it is as it was. -/
theorem C110_reshape (h : Heap R) (mem : Nat → Bool) (t : Tensor) (d1 d2 : List Int) (v : List R) (s : TensorShape) (H : Holds h t d1 v)
    (hs : mkShape d2 = .ok s) (hn : numel d1 = numel d2) (hr : d2.length ≤ d1.length) :
    ∃ mem', (mem 0 = true ∧ Tensor.reshapeA t s ⟨h, mem⟩ = (.ret (), ⟨s, t.data⟩, ⟨h, mem'⟩) ∧ Holds h ⟨s, t.data⟩ d2 v) ∨
      (mem 0 = false ∧ Tensor.reshapeA t s ⟨h, mem⟩ = (.bad, t, ⟨h, mem'⟩)) := by
  have hc1 : t.chunkAt 0 = .ok (numel d1 : Int) := mkShape_chunk0 H.mk
  have hc2 : s.chunkAt 0 = .ok (numel d2 : Int) := mkShape_chunk0 hs
  have hfit := assignShapeA_fits t.shape s d2 hs (by rw [mkShape_shape hs, mkShape_shape H.mk]; exact hr)
    (by rw [mkShape_chunk_length hs, mkShape_chunk_length H.mk]; exact hr) h mem
  refine ⟨fun n => mem (n + 1), ?_⟩
  cases h0 : mem 0 with
  | true =>
    left
    refine ⟨rfl, ?_, ?_⟩
    · simp [Tensor.reshapeA, hc1, hc2, hn, assertC, hfit, h0]
    · obtain ⟨p, g1, g2, g3, g4⟩ := H
      exact ⟨p, hs, by rw [g2, hn], g3, g4⟩
  | false =>
    right
    refine ⟨rfl, ?_⟩
    simp [Tensor.reshapeA, hc1, hc2, hn, assertC, hfit, h0]

/-- **`Reshape` to more dimensions is not safe**: if the third request fails, the tensor has the new dimensions with the old table of chunks; asking for the chunk of the last dimension is undefined behaviour. -/
theorem C110_reshape_refuted (h : Heap R) (mem : Nat → Bool) (t : Tensor) (d1 d2 : List Int) (v : List R) (s : TensorShape) (H : Holds h t d1 v)
    (hs : mkShape d2 = .ok s) (hn : numel d1 = numel d2) (hr : d1.length < d2.length) (h0 : mem 0 = true) (h1 : mem 1 = true) (h2 : mem 2 = false) :
    ∃ t' mem', Tensor.reshapeA t s ⟨h, mem⟩ = (.bad, t', ⟨h, mem'⟩) ∧ t'.shape.size = d2.length ∧
      t'.chunkAt ((d2.length : Int) - 1) = .error (.ub .vectorIndex) := by
  have hc1 : t.chunkAt 0 = .ok (numel d1 : Int) := mkShape_chunk0 H.mk
  have hc2 : s.chunkAt 0 = .ok (numel d2 : Int) := mkShape_chunk0 hs
  have hm : mkShape s.shape = .ok s := copyShape_mk hs
  have l1 : t.shape.shape.length < s.shape.length := by rw [mkShape_shape hs, mkShape_shape H.mk]; exact hr
  have l2 : t.shape.chunk.length < s.chunk.length := by rw [mkShape_chunk_length hs, mkShape_chunk_length H.mk]; exact hr
  refine ⟨⟨⟨s.shape, t.shape.chunk⟩, t.data⟩, fun n => mem (n + 3), ?_, ?_, ?_⟩
  · simp [Tensor.reshapeA, hc1, hc2, hn, assertC, assignShapeA, copyShapeA, mkShapeA, Bind.bind, A.bind, A.ask, h0, A.res, hm, assignVectors, l1, l2, h1, h2, Except.bind]
  · simp [TensorShape.size, mkShape_shape hs]
  · have l3 : t.shape.chunk.length ≤ d2.length - 1 := by rw [mkShape_chunk_length H.mk]; omega
    have : ((d2.length : Int) - 1) = ((d2.length - 1 : Nat) : Int) := by omega
    simp only [Tensor.chunkAt, TensorShape.chunkAt, vecAt, this]
    simp [List.getElem?_eq_none l3]

/-! ## Examples -/

/-- Requests in order: which of them succeed. -/
def memOf (l : List Bool) : Nat → Bool := fun n => l.getD n true

-- `exA + exC` if everything succeeds, and if `new` for the result or the copy of a shape after it fails
example : ∃ out h' m, (broadcastCode (R := Int) (· + ·) (fun s => s) exA exC).runA ⟨exHeap, memOf []⟩ = (.ret out, ⟨h', m⟩) := by
  rcases (C110_operations (R := Int) (· + ·) (fun _ => none) (fun _ _ => none) (fun a _ => a) (fun _ _ => true) (.ok ()) (fun s => s) exA exC 0).1 exHeap (memOf [])
    with ⟨_, _, _, _, n, hn⟩ | hr
  · simp [memOf] at hn
  · obtain ⟨⟨t, h', out, e, -⟩, -⟩ := C14_broadcast_partial (R := Int) (fun s => s) exHeap exA exC [2] [2] _ _ (by decide) ⟨0, exA_holds⟩ ⟨2, exC_holds⟩
    unfold addTT at e
    simp only [e] at hr
    obtain ⟨m, hm⟩ := hr
    exact ⟨_, _, _, hm⟩
example : ((mapCode (R := Int) (.ok ()) (fun x => some (-x)) (fun s => s) exC).runA ⟨exHeap, memOf [true, true, true, false]⟩).2.heap = exHeap := by decide
example : ((mapCode (R := Int) (.ok ()) (fun x => some (-x)) (fun s => s) exC).runA ⟨exHeap, memOf [true, true, true, true, false]⟩).2.heap =
    ⟨exHeap.blocks ++ [⟨[some 0, some 0], true, false⟩]⟩ := by decide

/-- The heap of the examples below. -/
def allocHeap : Heap Int := ⟨[⟨[some 1, some 2], true, true⟩, ⟨[some 5, some 6, some 7, some 8], true, true⟩, ⟨[some 3, some 4, some 5, some 6], true, true⟩]⟩

-- the hypotheses of the theorems about assignment, move and `Reshape`
example : HoldsAt allocHeap ⟨⟨[2, 2], [4, 2]⟩, some 1⟩ 1 [2, 2] [5, 6, 7, 8] ∧ HoldsAt allocHeap ⟨⟨[4], [4]⟩, some 2⟩ 2 [4] [3, 4, 5, 6] ∧
    numel [2, 2] = numel [4] ∧ ([4] : List Int).length ≤ ([2, 2] : List Int).length ∧ memOf [false] 0 = false ∧ memOf [] 0 = true :=
  ⟨⟨by decide, by decide, rfl, true, rfl⟩, ⟨by decide, by decide, rfl, true, rfl⟩, by decide, by decide, rfl, rfl⟩
example : ∃ t h' m, Tensor.copyAssignA ⟨⟨[2], [2]⟩, some 0⟩ ⟨⟨[4], [4]⟩, some 2⟩ ⟨allocHeap, memOf [false]⟩ = (.bad, t, ⟨h', m⟩) ∧
    t.shape = ⟨[2], [2]⟩ ∧ t.get h' 0 = .error (.ub .useAfterFree) ∧ t.destroy h' = .error (.ub .doubleFree) :=
  C110_assign_refuted allocHeap (memOf [false]) ⟨⟨[2], [2]⟩, some 0⟩ ⟨⟨[4], [4]⟩, some 2⟩ 0 2 [2] [4] [1, 2] [3, 4, 5, 6] (by decide) rfl rfl
    ⟨by decide, by decide, rfl, true, rfl⟩ (by decide) rfl
example : ∃ m, Tensor.moveCtorA ⟨⟨[2], [2]⟩, some 0⟩ ⟨allocHeap, memOf [true, true, false]⟩ =
    (.bad, ⟨⟨allocHeap.blocks ++ [⟨[some 1, some 2], true, true⟩]⟩, m⟩) := by
  obtain ⟨m, h1, -⟩ := C110_move_ctor_refuted allocHeap (memOf [true, true, false]) ⟨⟨[2], [2]⟩, some 0⟩ 0 [2] [1, 2] ⟨by decide, by decide, rfl, true, rfl⟩ rfl rfl rfl
  exact ⟨m, h1⟩
example : ∃ t s m, Tensor.moveAssignA ⟨⟨[4], [4]⟩, some 2⟩ ⟨⟨[2], [2]⟩, some 0⟩ ⟨allocHeap, memOf [false]⟩ = (.bad, t, s, ⟨allocHeap, m⟩) ∧
    t.chunkAt 0 = .ok 4 ∧ t.get allocHeap 2 = .error (.ub .outOfBounds) ∧ s.data = none :=
  C110_move_assign_refuted allocHeap (memOf [false]) ⟨⟨[4], [4]⟩, some 2⟩ ⟨⟨[2], [2]⟩, some 0⟩ 0 [4] [2] [1, 2] (by decide)
    ⟨by decide, by decide, rfl, true, rfl⟩ (by decide) rfl
example : ∃ t m, Tensor.reshapeA ⟨⟨[4], [4]⟩, some 2⟩ ⟨[2, 2], [4, 2]⟩ ⟨allocHeap, memOf [true, true, false]⟩ = (.bad, t, ⟨allocHeap, m⟩) ∧ t.shape.size = 2 ∧
    t.chunkAt 1 = .error (.ub .vectorIndex) :=
  C110_reshape_refuted allocHeap (memOf [true, true, false]) ⟨⟨[4], [4]⟩, some 2⟩ [4] [2, 2] [3, 4, 5, 6] ⟨[2, 2], [4, 2]⟩
    ⟨2, by decide, by decide, rfl, true, rfl⟩ (by decide) (by decide) (by decide) rfl rfl rfl
example : ∃ m, Tensor.reshapeA ⟨⟨[2, 2], [4, 2]⟩, some 1⟩ ⟨[4], [4]⟩ ⟨allocHeap, memOf []⟩ = (.ret (), ⟨⟨[4], [4]⟩, some 1⟩, ⟨allocHeap, m⟩) := by
  obtain ⟨m, ⟨_, h1, -⟩ | ⟨h0, -⟩⟩ := C110_reshape allocHeap (memOf []) ⟨⟨[2, 2], [4, 2]⟩, some 1⟩ [2, 2] [4] [5, 6, 7, 8] ⟨[4], [4]⟩
    ⟨1, by decide, by decide, rfl, true, rfl⟩ (by decide) (by decide) (by decide)
  · exact ⟨m, h1⟩
  · cases h0

end Nnet.Tensor
