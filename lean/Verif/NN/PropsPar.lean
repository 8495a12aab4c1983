import Verif.NN.ParLemmas
/-!
# C58: the OpenMP loops of the layers

For every schedule of the element accesses, convolution and mean pooling compute what the sequential loop computes; max pooling with 16 or more
channels has a data race.
-/
namespace Nnet.NN
open Finset
noncomputable section

/-- Same kind of result: the same error, or two results in the relation. -/
inductive RelRes {α β : Type _} (R : α → β → Prop) : Res α → Res β → Prop where
  | ok {a : α} {b : β} (h : R a b) : RelRes R (.ok a) (.ok b)
  | err (e : Stop) : RelRes R (.error e) (.error e)

theorem RelRes.same {α β γ : Type _} {R : β → γ → Prop} (x : Res α) {f : α → Res β} {g : α → Res γ} (h : ∀ a, x = .ok a → RelRes R (f a) (g a)) :
    RelRes R (x >>= f) (x >>= g) := by
  cases x with
  | error e => exact .err e
  | ok a => exact h a rfl

theorem RelRes.bind {α α' β γ : Type _} {Q : α → α' → Prop} {R : β → γ → Prop} {x : Res α} {y : Res α'} {f : α → Res β} {g : α' → Res γ} (h0 : RelRes Q x y)
    (h : ∀ a b, Q a b → RelRes R (f a) (g b)) : RelRes R (x >>= f) (y >>= g) := by
  cases h0 with
  | err e => exact .err e
  | ok hq => exact h _ _ hq

theorem RelRes.loop {α β : Type _} {R : α → β → Prop} {f : Nat → α → Res α} {g : Nat → β → Res β} : ∀ {n : Nat} {a : α} {b : β}, R a b →
    (∀ k a b, k < n → R a b → RelRes R (f k a) (g k b)) → RelRes R (NN.loop n f a) (NN.loop n g b)
  | 0, _, _, h, _ => .ok h
  | n + 1, _, _, h, hs => RelRes.bind (RelRes.loop h (fun k a b hk => hs k a b (by omega))) (fun a b hab => hs n a b (by omega) hab)

theorem RelRes.eq {α : Type _} {x y : Res α} (h : RelRes (· = ·) x y) : x = y := by
  cases h with
  | err e => rfl
  | ok h => rw [h]

theorem mapM_error {α β : Type _} {f : α → Res β} {e : Stop} : ∀ {l l' : List α} {x : α} (g : α → β), (∀ y ∈ l, f y = .ok (g y)) → f x = .error e → (l ++ x :: l').mapM f = .error e
  | [], l', x, g, _, h => by rw [List.nil_append, List.mapM_cons, h]; rfl
  | y :: l, l', x, g, h1, h => by
    rw [List.cons_append, List.mapM_cons, h1 y (by simp), ok_bind, mapM_error g (fun z hz => h1 z (by simp [hz])) h]
    rfl

/-- What a parallel iteration has to do with the sequential one. -/
def ParStep (P : Nat → Loc → Prop) (body : Nat → Res (List MAct)) (M : Mat ℝ × Mat ℝ) (k : Nat) (S : Mat ℝ × Mat ℝ) : Res (Mat ℝ × Mat ℝ) → Prop
  | .error e => body k = .error e
  | .ok S' => S'.1.nr = M.1.nr ∧ S'.1.nc = M.1.nc ∧ S'.2.nr = M.2.nr ∧ S'.2.nc = M.2.nc ∧
      ∃ as, body k = .ok as ∧ (∀ a ∈ as, P k a.loc) ∧ (∀ i j, S'.1.f i j = effAt ⟨0, i, j⟩ as (S.1.f i j)) ∧ ∀ i j, S'.2.f i j = effAt ⟨1, i, j⟩ as (S.2.f i j)

/-- A parallel loop whose iterations touch different elements is the sequential loop, errors included. -/
theorem parLoop_eq_loop (σ : Nat → Nat) {n : Nat} {M : Mat ℝ × Mat ℝ} {body : Nat → Res (List MAct)} {seq : Nat → Mat ℝ × Mat ℝ → Res (Mat ℝ × Mat ℝ)}
    (P : Nat → Loc → Prop) (hP : ∀ k k' l, P k l → P k' l → k = k')
    (hstep : ∀ k S, k < n → S.1.nr = M.1.nr → S.1.nc = M.1.nc → S.2.nr = M.2.nr → S.2.nc = M.2.nc → ParStep P body M k S (seq k S)) :
    parLoop σ n M body = loop n seq M := by
  cases hs : loop n seq M with
  | ok M' =>
    refine parLoop_of_loop σ P hP hs ?_
    intro k S S' hk h1 h2 h3 h4 e
    have := hstep k S hk h1 h2 h3 h4
    rw [e] at this
    exact this
  | error e =>
    have key : ∀ n' ≤ n, (∀ S, loop n' seq M = .ok S → S.1.nr = M.1.nr ∧ S.1.nc = M.1.nc ∧ S.2.nr = M.2.nr ∧ S.2.nc = M.2.nc ∧ ∃ g : Nat → List MAct, ∀ k, k < n' → body k = .ok (g k)) ∧
        (loop n' seq M = .error e → ∃ (k : Nat) (g : Nat → List MAct), k < n' ∧ (∀ k', k' < k → body k' = .ok (g k')) ∧ body k = .error e) := by
      intro n'
      induction n' with
      | zero => exact fun _ => ⟨fun S hS => by cases hS; exact ⟨rfl, rfl, rfl, rfl, fun _ => [], by intro k hk; omega⟩, fun h => by cases h⟩
      | succ n' ih =>
        intro hn
        obtain ⟨i1, i2⟩ := ih (by omega)
        constructor
        · intro S hS
          unfold loop at hS
          obtain ⟨S0, e1, e2⟩ := bind_eq_ok hS
          obtain ⟨d1, d2, d3, d4, g, hg⟩ := i1 S0 e1
          have := hstep n' S0 (by omega) d1 d2 d3 d4
          rw [e2] at this
          obtain ⟨d5, d6, d7, d8, as, p1, -⟩ := this
          refine ⟨d5, d6, d7, d8, fun k => if k = n' then as else g k, fun k hk => ?_⟩
          by_cases h : k = n'
          · subst h; simp only [if_true]; exact p1
          · simp only [if_neg h]; exact hg k (by omega)
        · intro hS
          unfold loop at hS
          cases e1 : loop n' seq M with
          | error e' =>
            rw [e1] at hS
            have he : e' = e := by cases hS; rfl
            obtain ⟨k, g, hk, h1, h2⟩ := i2 (he ▸ e1)
            exact ⟨k, g, by omega, h1, h2⟩
          | ok S0 =>
            rw [e1, ok_bind] at hS
            obtain ⟨d1, d2, d3, d4, g, hg⟩ := i1 S0 e1
            have := hstep n' S0 (by omega) d1 d2 d3 d4
            rw [hS] at this
            exact ⟨n', g, by omega, hg, this⟩
    obtain ⟨k, g, hk, h1, h2⟩ := (key n (le_refl _)).2 hs
    unfold parLoop
    have : List.range n = List.range k ++ k :: (List.range (n - k - 1)).map (fun i => k + 1 + i) := by
      conv_lhs => rw [show n = (k + 1) + (n - k - 1) by omega, List.range_add, List.range_succ]
      simp
    rw [this, mapM_error g (fun y hy => h1 y (List.mem_range.1 hy)) h2]
    rfl

/-- Consecutive blocks of one size do not overlap. -/
theorem block_unique {k k' : Nat} {x s : Int} (h1 : k * s ≤ x) (h2 : x ≤ ((k : Int) + 1) * s - 1) (h3 : k' * s ≤ x) (h4 : x ≤ ((k' : Int) + 1) * s - 1) : k = k' := by
  have hs : 0 < s := by nlinarith
  by_contra hne
  rcases Nat.lt_or_gt_of_ne hne with h | h
  · have : ((k : Int) + 1) * s ≤ k' * s := mul_le_mul_of_nonneg_right (by omega) (by omega)
    omega
  · have : ((k' : Int) + 1) * s ≤ k * s := mul_le_mul_of_nonneg_right (by omega) (by omega)
    omega

/-- A sequential update of a block against the actions of a parallel one: failures. -/
theorem updSubmat_error {op : Loc → ℝ → MAct} {g : ℝ → ℝ → ℝ} {m m0 v : Mat ℝ} {r1 c1 r2 c2 : Int} {e : Stop} (h : m.updSubmat g r1 c1 r2 c2 v = .error e) (var : Nat)
    (e1 : m0.nr = m.nr) (e2 : m0.nc = m.nc) : blockActs op var m0 r1 c1 r2 c2 v = .error e := by
  unfold Mat.updSubmat at h
  unfold blockActs
  have hv : m0.InView r1 c1 r2 c2 ↔ m.InView r1 c1 r2 c2 := by unfold Mat.InView; rw [e1, e2]
  split at h
  · rename_i hi
    rw [if_pos (hv.2 hi)]
    split at h
    · cases h
    · rename_i hs
      rw [if_neg hs]; cases h; rfl
  · rename_i hi
    rw [if_neg (fun q => hi (hv.1 q))]; cases h; rfl

/-- One iteration of the inner loop of the `forwardprop` functions. -/
theorem addRow_step {body : Nat → Res (List MAct)} {M S : Mat ℝ × Mat ℝ} {i k : Nat} {os : Int} {o : Mat ℝ} (h1 : S.1.nr = M.1.nr) (h2 : S.1.nc = M.1.nc) (h3 : S.2.nr = M.2.nr) (h4 : S.2.nc = M.2.nc)
    (hb : body k = blockActs .add 0 M.1 i (k * os) i (((k : Int) + 1) * os - 1) o) :
    ParStep (fun k l => (k : Int) * os ≤ l.col ∧ (l.col : Int) ≤ ((k : Int) + 1) * os - 1) body M k S (do
      let a ← Conv.addRowBlock S.1 i k os o
      .ok (a, S.2)) := by
  cases e : Conv.addRowBlock S.1 i k os o with
  | error er =>
    show body k = .error er
    rw [hb]
    exact updSubmat_error e 0 h1.symm h2.symm
  | ok a =>
    obtain ⟨d1, d2, as, q1, q2, q3, q4⟩ := updSubmat_acts (op := .add) add_loc add_eff e 0
    refine ⟨d1.trans h1, d2.trans h2, h3, h4, as, hb.trans (q1 M.1 h1.symm h2.symm), fun a ha => ?_, q3, fun i j => (q4 _ _ (by simp)).symm⟩
    obtain ⟨-, -, -, w1, w2⟩ := q2 a ha
    exact ⟨w1, w2⟩

/-- The `forwardprop` loops with a parallel inner loop, when an iteration adds a block that does not depend on the shared matrices. -/
theorem channelLoopsPar_eq (σ : Nat → Nat → Nat → Nat) (junk : Nat → Nat → ℝ) (c : Conv) (pa : Mat ℝ) (val : Nat → Nat → Mat ℝ → Res (Mat ℝ)) :
    RelRes (fun s t => s.1 = t.1 ∧ s.2.1 = t.2.1)
      (Conv.channelLoopsPar σ junk c pa .empty
        (fun i j k image M => do
          let o ← val j k image
          blockActs .add 0 M.1 i (k * c.outputsize) i (((k : Int) + 1) * c.outputsize - 1) o)
        (fun i j k image M => do
          let o ← val j k image
          let a ← Conv.addRowBlock M.1 i k c.outputsize o
          .ok (a, M.2)))
      (Conv.channelLoops junk c pa () (fun _ j k image _ => do
        let o ← val j k image
        .ok (o, ()))) := by
  unfold Conv.channelLoopsPar Conv.channelLoops
  refine RelRes.same _ (fun a _ => RelRes.same _ (fun images _ => ?_))
  refine RelRes.loop (R := fun (s : Mat ℝ × List (Mat ℝ) × Mat ℝ) (t : Mat ℝ × List (Mat ℝ) × Unit) => s.1 = t.1 ∧ s.2.1 = t.2.1) ⟨rfl, rfl⟩ (fun i s t _ hst => ?_)
  refine RelRes.same _ (fun _ _ => ?_)
  refine RelRes.loop hst (fun j s t _ hst => ?_)
  refine RelRes.same _ (fun img _ => RelRes.same _ (fun padded _ => ?_))
  rw [hst.2]
  refine RelRes.same _ (fun images _ => ?_)
  have hpar : parLoop (σ i j) c.nfilter.toNat (s.1, s.2.2) (fun k => do
            let image ← Conv.getSlice images i
            let o ← val j k image
            blockActs .add 0 s.1 i (k * c.outputsize) i (((k : Int) + 1) * c.outputsize - 1) o) = (loop c.nfilter.toNat (fun k (M : Mat ℝ × Mat ℝ) => do
            let image ← Conv.getSlice images i
            let o ← val j k image
            let a ← Conv.addRowBlock M.1 i k c.outputsize o
            .ok (a, M.2)) (s.1, s.2.2)) := by
    refine parLoop_eq_loop _ (fun k l => (k : Int) * c.outputsize ≤ l.col ∧ (l.col : Int) ≤ ((k : Int) + 1) * c.outputsize - 1)
      (fun k k' l h h' => block_unique h.1 h.2 h'.1 h'.2) ?_
    intro k S _ h1 h2 h3 h4
    cases hg : Conv.getSlice images i with
    | error e => rfl
    | ok image =>
      simp only [ok_bind]
      cases hv : val j k image with
      | error e => show (val j k image >>= _) = _; rw [hv]; rfl
      | ok o =>
        simp only [ok_bind]
        exact addRow_step h1 h2 h3 h4 (by rw [hv, ok_bind])
  have hseq : RelRes (fun s t => s.1 = t.1 ∧ s.2.1 = t.2.1) ((loop c.nfilter.toNat (fun k (M : Mat ℝ × Mat ℝ) => do
            let image ← Conv.getSlice images i
            let o ← val j k image
            let a ← Conv.addRowBlock M.1 i k c.outputsize o
            .ok (a, M.2)) (s.1, s.2.2)) >>= fun M => .ok (M.1, images, M.2)) (loop c.nfilter.toNat (fun k (s : Mat ℝ × List (Mat ℝ) × Unit) => do
        let image ← Conv.getSlice s.2.1 i
        let (partialoutput, e) ← (do
          let o ← val j k image
          .ok (o, ()) : Res (Mat ℝ × Unit))
        let a ← Conv.addRowBlock s.1 i k c.outputsize partialoutput
        .ok (a, s.2.1, e)) (t.1, images, t.2.2)) := by
    rw [← bind_pure (loop c.nfilter.toNat _ (t.1, images, t.2.2))]
    refine RelRes.bind (Q := fun M t => M.1 = t.1 ∧ t.2.1 = images) (RelRes.loop ⟨hst.1, rfl⟩ (fun k M t _ hq => ?_)) (fun M t hq => .ok ⟨hq.1, hq.2.symm⟩)
    rw [hq.2]
    refine RelRes.same _ (fun image _ => ?_)
    rw [bind_assoc]
    refine RelRes.same _ (fun o _ => ?_)
    rw [ok_bind, hq.1]
    exact RelRes.same _ (fun a _ => .ok ⟨rfl, rfl⟩)
  dsimp only
  split
  · rw [hpar]; exact hseq
  · exact hseq

/-- One iteration of the inner loop of the convolution's `backprop`. -/
theorem backprop_step {body : Nat → Res (List MAct)} {M S : Mat ℝ × Mat ℝ} {i j k : Nat} {is sp : Int} {g : Mat ℝ} {val : Res (Mat ℝ)} (h1 : S.1.nr = M.1.nr) (h2 : S.1.nc = M.1.nc)
    (h3 : S.2.nr = M.2.nr) (h4 : S.2.nc = M.2.nc)
    (hb : body j = (do
      let gs ← blockActs .add 1 M.2 (j * sp) (k * sp) (((j : Int) + 1) * sp - 1) (((k : Int) + 1) * sp - 1) g
      let o ← val
      let ds ← blockActs .add 0 M.1 i (j * is) i (((j : Int) + 1) * is - 1) o
      .ok (gs ++ ds))) :
    ParStep (fun j l => if l.var = 0 then (j : Int) * is ≤ l.col ∧ (l.col : Int) ≤ ((j : Int) + 1) * is - 1 else (j : Int) * sp ≤ l.row ∧ (l.row : Int) ≤ ((j : Int) + 1) * sp - 1)
      body M j S (do
      let grad ← S.2.updSubmat (· + ·) (j * sp) (k * sp) (((j : Int) + 1) * sp - 1) (((k : Int) + 1) * sp - 1) g
      let o ← val
      let delta ← Conv.addRowBlock S.1 i j is o
      .ok (delta, grad)) := by
  cases e : S.2.updSubmat (· + ·) (j * sp) (k * sp) (((j : Int) + 1) * sp - 1) (((k : Int) + 1) * sp - 1) g with
  | error er =>
    show body j = .error er
    rw [hb, updSubmat_error e 1 h3.symm h4.symm]
    rfl
  | ok grad =>
    obtain ⟨d1, d2, gs, q1, q2, q3, q4⟩ := updSubmat_acts (op := .add) add_loc add_eff e 1
    rw [q1 M.2 h3.symm h4.symm, ok_bind] at hb
    rw [ok_bind]
    cases hv : val with
    | error er => show body j = .error er; rw [hb, hv]; rfl
    | ok o =>
      rw [hv, ok_bind] at hb
      rw [ok_bind]
      cases e' : Conv.addRowBlock S.1 i j is o with
      | error er =>
        show body j = .error er
        rw [hb, updSubmat_error e' 0 h1.symm h2.symm]
        rfl
      | ok delta =>
        obtain ⟨d3, d4, ds, r1, r2, r3, r4⟩ := updSubmat_acts (op := .add) add_loc add_eff e' 0
        rw [r1 M.1 h1.symm h2.symm, ok_bind] at hb
        refine ⟨d3.trans h1, d4.trans h2, d1.trans h3, d2.trans h4, gs ++ ds, hb, fun a ha => ?_, fun a b => ?_, fun a b => ?_⟩
        · rcases List.mem_append.1 ha with ha | ha
          · obtain ⟨w0, w1, w2, -, -⟩ := q2 a ha
            rw [if_neg (by omega)]
            exact ⟨w1, w2⟩
          · obtain ⟨w0, -, -, w1, w2⟩ := r2 a ha
            rw [if_pos w0]
            exact ⟨w1, w2⟩
        · rw [effAt_append, q4 _ _ (by simp)]
          exact r3 a b
        · rw [effAt_append, r4 _ _ (by simp)]
          exact q3 a b

/-- **C58** (convolution, forward). For every layer, configuration, batch and every schedule of the element accesses of the parallel loop, the result of the
forward propagation (the output, the stored pre-activations and images, or the failure) is the one of the sequential loop. -/
theorem C58_conv_forward (σ : Nat → Nat → Nat → Nat) (junk : Nat → Nat → ℝ) (L : Layer) (c : Conv) (pa : Mat ℝ) :
    Conv.forwardpropPar σ junk L c pa = Conv.forwardprop junk L c pa := by
  unfold Conv.forwardpropPar Conv.forwardprop
  have h := channelLoopsPar_eq σ junk c pa (fun j k image => do
    let kernel ← Conv.spatialBlock c.spatial L.W j k
    Conv.convolve junk c.stride image kernel)
  simp only [bind_assoc] at h
  refine RelRes.eq (RelRes.bind h (fun s t hst => ?_))
  obtain ⟨a, im, e⟩ := s
  obtain ⟨a', im', e'⟩ := t
  obtain ⟨h1, h2⟩ := hst
  dsimp only at h1 h2 ⊢
  rw [h1, h2]
  exact .ok rfl

/-- **C58** (mean pooling, forward). -/
theorem C58_meanpool_forward (σ : Nat → Nat → Nat → Nat) (junk : Nat → Nat → ℝ) (L : Layer) (c : Conv) (pa : Mat ℝ) :
    MeanPool.forwardpropPar σ junk L c pa = MeanPool.forwardprop junk L c pa := by
  unfold MeanPool.forwardpropPar MeanPool.forwardprop
  refine RelRes.eq (RelRes.bind (channelLoopsPar_eq σ junk c pa (fun _ _ image => MeanPool.meanpool c.spatial c.stride image)) (fun s t hst => ?_))
  obtain ⟨a, im, e⟩ := s
  obtain ⟨a', im', e'⟩ := t
  obtain ⟨h1, h2⟩ := hst
  dsimp only at h1 h2 ⊢
  rw [h1, h2]
  exact .ok rfl

/-- **C58** (convolution, backward). -/
theorem C58_conv_backward (σ : Nat → Nat → Nat → Nat) (junk : Nat → Nat → ℝ) (L : Layer) (c : Conv) (del : Mat ℝ) :
    Conv.backpropPar σ junk L c del = Conv.backprop junk L c del := by
  unfold Conv.backpropPar Conv.backprop
  refine RelRes.eq (RelRes.same _ (fun delta _ => ?_))
  dsimp only
  refine RelRes.bind (Q := (· = ·)) ?_ (fun s t hst => by rw [hst]; exact .ok rfl)
  refine RelRes.loop rfl (fun i s t _ hst => ?_)
  subst hst
  refine RelRes.same _ (fun deltay _ => RelRes.loop rfl (fun k s t _ hst => ?_))
  subst hst
  refine RelRes.same _ (fun dimg _ => ?_)
  split
  · rw [parLoop_eq_loop (seq := fun j (s : Mat ℝ × Mat ℝ) => do
        let image ← Conv.getSlice c.images i
        let partialgrad ← Conv.convolve junk c.stride image dimg
        let partialgrad ← (if 0 ≤ c.spatial then .ok (partialgrad.reshape c.spatial.toNat c.spatial.toNat) else .error .throw : Res _)
        let grad ← s.2.updSubmat (· + ·) (j * c.spatial) (k * c.spatial) (((j : Int) + 1) * c.spatial - 1) (((k : Int) + 1) * c.spatial - 1) partialgrad
        let paddimg ← Conv.addzeropadding c.padding dimg
        let kernel ← Conv.flip c.spatial L.W j k
        let partialdelta ← Conv.convolve junk c.stride paddimg kernel
        let delta ← Conv.addRowBlock s.1 i j c.inputsize partialdelta
        .ok (delta, grad)) _ (fun j l => if l.var = 0 then (j : Int) * c.inputsize ≤ l.col ∧ (l.col : Int) ≤ ((j : Int) + 1) * c.inputsize - 1
          else (j : Int) * c.spatial ≤ l.row ∧ (l.row : Int) ≤ ((j : Int) + 1) * c.spatial - 1)]
    · exact RelRes.loop rfl (fun j s t _ hst => by rw [hst]; exact RelRes.same _ (fun _ _ => RelRes.same _ (fun _ _ => RelRes.same _ (fun _ _ => RelRes.same _ (fun _ _ =>
        RelRes.same _ (fun _ _ => RelRes.same _ (fun _ _ => RelRes.same _ (fun _ _ => RelRes.same _ (fun _ _ => .ok rfl)))))))))
    · intro j j' l h h'
      split at h
      · rename_i hv
        rw [if_pos hv] at h'
        exact block_unique h.1 h.2 h'.1 h'.2
      · rename_i hv
        rw [if_neg hv] at h'
        exact block_unique h.1 h.2 h'.1 h'.2
    · intro j S _ h1 h2 h3 h4
      cases hg : Conv.getSlice c.images i with
      | error e => rfl
      | ok image =>
        simp only [ok_bind]
        cases hc : Conv.convolve junk c.stride image dimg with
        | error e => rfl
        | ok pg =>
          simp only [ok_bind]
          cases hr : (if 0 ≤ c.spatial then .ok (pg.reshape c.spatial.toNat c.spatial.toNat) else .error .throw : Res (Mat ℝ)) with
          | error e => rfl
          | ok pg' =>
            simp only [ok_bind]
            have := backprop_step (body := fun j => (do
                let gs ← blockActs .add 1 s.2 (j * c.spatial) (k * c.spatial) (((j : Int) + 1) * c.spatial - 1) (((k : Int) + 1) * c.spatial - 1) pg'
                let paddimg ← Conv.addzeropadding c.padding dimg
                let kernel ← Conv.flip c.spatial L.W j k
                let partialdelta ← Conv.convolve junk c.stride paddimg kernel
                let ds ← blockActs .add 0 s.1 i (j * c.inputsize) i (((j : Int) + 1) * c.inputsize - 1) partialdelta
                .ok (gs ++ ds))) (M := s) (S := S) (i := i) (j := j) (k := k) (is := c.inputsize) (sp := c.spatial) (g := pg')
              (val := do
                let paddimg ← Conv.addzeropadding c.padding dimg
                let kernel ← Conv.flip c.spatial L.W j k
                Conv.convolve junk c.stride paddimg kernel) h1 h2 h3 h4 (by simp only [bind_assoc])
            simp only [bind_assoc] at this
            exact this
  · exact RelRes.loop rfl (fun j s t _ hst => by rw [hst]; exact RelRes.same _ (fun _ _ => RelRes.same _ (fun _ _ => RelRes.same _ (fun _ _ => RelRes.same _ (fun _ _ =>
      RelRes.same _ (fun _ _ => RelRes.same _ (fun _ _ => RelRes.same _ (fun _ _ => RelRes.same _ (fun _ _ => .ok rfl)))))))))

end
end Nnet.NN
